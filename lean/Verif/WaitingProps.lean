import Verif.WaitingModel
/- Properties C15 and C16: the waiting-request list. -/
namespace Verif.Waiting
open Verif.DataReq (Request)
open List

/-- Same request, retry count one higher. -/
def bump (x : Parked) : Parked := { x with retries := x.retries + 1 }

theorem swapRemove_split (l : List Parked) (i : Nat) (h : i < l.length) :
    ∃ r, swapRemove l i = l.take i ++ r ∧ (l.drop i).Perm (l[i] :: r) := by
  obtain ⟨x, hx⟩ : ∃ x, l.getLast? = some x := by
    rw [List.getLast?_eq_some_getLast (by rintro rfl; simp at h)]; exact ⟨_, rfl⟩
  have hne : l ≠ [] := by rintro rfl; simp at h
  simp only [swapRemove, hx]
  by_cases hlast : i + 1 = l.length
  · refine ⟨[], ?_, ?_⟩
    · rw [List.dropLast_eq_take, List.length_set, List.append_nil]
      have : l.length - 1 = i := by omega
      rw [this, List.take_set_of_le (by omega)]
    · rw [List.drop_eq_getElem_cons h]
      have : l.drop (i + 1) = [] := by simp; omega
      rw [this]
  · refine ⟨x :: (l.drop (i+1)).dropLast, ?_, ?_⟩
    · rw [List.set_eq_take_append_cons_drop, if_pos h]
      rw [List.dropLast_append_of_ne_nil (by simp), List.dropLast_cons_of_ne_nil]
      simp; omega
    · rw [List.drop_eq_getElem_cons h]
      refine List.Perm.cons _ ?_
      have hd : l.drop (i+1) ≠ [] := by simp; omega
      have e : (l.drop (i+1)).getLast hd = x := by
        rw [List.getLast?_eq_some_getLast hne] at hx
        injection hx with hx
        rw [← hx, List.getLast_drop]
      have := List.dropLast_concat_getLast hd
      rw [e] at this
      conv => lhs; rw [← this]
      exact List.perm_append_singleton _ _

/-- Correct treatment of one request. -/
def Justified (newest limit : Nat) (run : Nat → Bool) : Action × Parked → Prop
  | (.reissue, x) => x.req.wEnd < newest
  | (.timeout, x) => ¬ x.req.wEnd < newest ∧ limit ≤ x.retries
  | (.endOfRun, x) => ¬ x.req.wEnd < newest ∧ x.retries < limit ∧ ∃ n, run n = false

/-- Correct keeping of one request (as stored before the pass). -/
def KeptOk (newest limit : Nat) (run : Nat → Bool) (x : Parked) : Prop :=
  ¬ x.req.wEnd < newest ∧ x.retries < limit ∧ ∃ n, run n = true

theorem scanLoop_spec (newest limit : Nat) (run : Nat → Bool) (fuel n i : Nat) (l : List Parked)
    (c : Ctr) (log : Log) (hf : l.length ≤ fuel + i) (hi : i ≤ l.length) :
    ∃ kept log' c', scanLoop newest limit run fuel n i l c log =
        .ok (l.take i ++ kept.map bump, c', log ++ log') ∧
      (l.drop i).Perm (kept ++ log'.map (·.2)) ∧
      (∀ x ∈ kept, KeptOk newest limit run x) ∧
      (∀ a ∈ log', Justified newest limit run a) ∧
      c'.timedOut = c.timedOut + log'.countP (fun a => a.1 = .timeout) ∧
      c'.bad = c.bad + log'.countP (fun a => a.1 ≠ .reissue) := by
  induction fuel generalizing n i l c log with
  | zero =>
    have : i = l.length := by omega
    subst this
    exact ⟨[], [], c, by simp [scanLoop], by simp, by simp, by simp, by simp, by simp⟩
  | succ fuel ih =>
    by_cases h : i < l.length
    · simp only [scanLoop, h, if_true, List.getElem?_eq_getElem h]
      obtain ⟨r, er, pr⟩ := swapRemove_split l i h
      have hti : (l.take i).length = i := by simp; omega
      have hlen : (swapRemove l i).length + 1 = l.length := by
        rw [er]; have := pr.length_eq; simp at this ⊢; omega
      have etake : (swapRemove l i).take i = l.take i := by
        rw [er]; rw [List.take_append_of_le_length (by omega), List.take_take]; simp
      have edrop : (swapRemove l i).drop i = r := by
        rw [er]; rw [List.drop_append_of_le_length (by omega)]
        rw [List.drop_eq_nil_of_le (by omega)]; simp
      have rem : ∀ (a : Action) (c1 : Ctr), Justified newest limit run (a, l[i]) →
          (c1.timedOut = c.timedOut + (if a = .timeout then 1 else 0)) →
          (c1.bad = c.bad + (if a ≠ .reissue then 1 else 0)) →
          ∃ kept log' c', scanLoop newest limit run fuel (n + 1) i (swapRemove l i) c1
              (log ++ [(a, l[i])]) = .ok (l.take i ++ kept.map bump, c', log ++ log') ∧
            (l.drop i).Perm (kept ++ log'.map (·.2)) ∧
            (∀ x ∈ kept, KeptOk newest limit run x) ∧
            (∀ a ∈ log', Justified newest limit run a) ∧
            c'.timedOut = c.timedOut + log'.countP (fun a => a.1 = .timeout) ∧
            c'.bad = c.bad + log'.countP (fun a => a.1 ≠ .reissue) := by
        intro a c1 ha ht hb
        obtain ⟨kept, log', c', e, p, k, j, t, b⟩ :=
          ih (n+1) i (swapRemove l i) c1 (log ++ [(a, l[i])]) (by omega) (by omega)
        refine ⟨kept, (a, l[i]) :: log', c', ?_, ?_, k, ?_, ?_, ?_⟩
        · rw [e, etake]; simp
        · rw [edrop] at p
          refine pr.trans ((p.cons _).trans ?_)
          simp only [List.map_cons]
          exact List.perm_middle.symm
        · intro x hx
          rcases List.mem_cons.1 hx with rfl | hx
          · exact ha
          · exact j x hx
        · rw [t, ht, List.countP_cons]; simp; omega
        · rw [b, hb, List.countP_cons]; simp; omega
      by_cases h1 : l[i].req.wEnd < newest
      · simp only [h1, if_true]
        exact rem .reissue c h1 (by simp) (by simp)
      · simp only [h1, if_false]
        by_cases h2 : l[i].retries ≥ limit
        · simp only [h2, if_true]
          exact rem .timeout _ ⟨h1, h2⟩ (by simp) (by simp)
        · simp only [h2, if_false]
          cases h3 : run n with
          | false =>
            simp only [Bool.not_false, if_true]
            exact rem .endOfRun _ ⟨h1, by omega, n, h3⟩ (by simp) (by simp)
          | true =>
            simp only [Bool.not_true, Bool.false_eq_true, if_false]
            obtain ⟨kept, log', c', e, p, k, j, t, b⟩ :=
              ih (n+1) (i+1) (l.set i { l[i] with retries := l[i].retries + 1 }) c log
                (by simp; omega) (by simp; omega)
            refine ⟨l[i] :: kept, log', c', ?_, ?_, ?_, j, t, b⟩
            · rw [e]
              congr 2
              rw [List.take_add_one, List.take_set_of_le (by omega)]
              simp [h, bump]
            · rw [List.drop_set_of_lt (by omega)] at p
              rw [List.drop_eq_getElem_cons h]
              exact p.cons _
            · intro x hx
              rcases List.mem_cons.1 hx with rfl | hx
              · exact ⟨h1, by omega, n, h3⟩
              · exact k x hx
    · have : i = l.length := by omega
      subst this
      refine ⟨[], [], c, by simp [scanLoop], by simp, by simp, by simp, by simp, by simp⟩

/-- **C15** For every waiting list, newest timestamp, retry limit and behaviour of the run marker
during the pass: the pass finishes, and every parked request is treated exactly once: it is
kept with its retry count increased by one, or reissued, or answered with an empty fragment, each
only under its condition (window complete; retries exhausted; run ended). The counters advance by
the number of empty fragments / timeouts. -/
theorem C15_scan_treats_each_once (newest limit : Nat) (run : Nat → Bool) (l : List Parked)
    (c : Ctr) :
    ∃ kept done c', scan newest limit run l c = .ok (kept.map bump, c', done) ∧
      l.Perm (kept ++ done.map (·.2)) ∧
      (∀ x ∈ kept, ¬ x.req.wEnd < newest ∧ x.retries < limit ∧ ∃ n, run n = true) ∧
      (∀ x, (.reissue, x) ∈ done → x.req.wEnd < newest) ∧
      (∀ x, (.timeout, x) ∈ done → ¬ x.req.wEnd < newest ∧ limit ≤ x.retries) ∧
      (∀ x, (.endOfRun, x) ∈ done →
        ¬ x.req.wEnd < newest ∧ x.retries < limit ∧ ∃ n, run n = false) ∧
      c'.timedOut = c.timedOut + done.countP (fun a => a.1 = .timeout) ∧
      c'.bad = c.bad + done.countP (fun a => a.1 ≠ .reissue) := by
  obtain ⟨kept, log', c', e, p, k, j, t, b⟩ := scanLoop_spec newest limit run l.length 0 0 l c []
    (by omega) (by omega)
  refine ⟨kept, log', c', by simpa [scan] using e, by simpa using p, k, ?_, ?_, ?_, t, b⟩
  · exact fun x hx => j _ hx
  · exact fun x hx => j _ hx
  · exact fun x hx => j _ hx

/-- Non-vacuity for C15: one request of each fate. -/
example : scan 100 3 (fun _ => true)
    [⟨⟨1, 0, 0, 50, 0, 0⟩, 0, 0, 0⟩, ⟨⟨2, 0, 0, 500, 0, 0⟩, 0, 3, 0⟩, ⟨⟨3, 0, 0, 500, 0, 0⟩, 0, 1, 0⟩] ⟨0, 0⟩
    = .ok ([⟨⟨3, 0, 0, 500, 0, 0⟩, 0, 2, 0⟩], ⟨1, 1⟩,
        [(.reissue, ⟨⟨1, 0, 0, 50, 0, 0⟩, 0, 0, 0⟩), (.timeout, ⟨⟨2, 0, 0, 500, 0, 0⟩, 0, 3, 0⟩)]) := by
  decide

theorem passes_inv {limit now : Nat} {l : List Parked} (h : Passes limit now l) :
    ∀ x ∈ l, x.born + x.retries = now ∧ x.retries ≤ limit := by
  induction h with
  | start => simp
  | park now l req sink _ ih =>
    intro x hx
    rcases List.mem_append.1 hx with hx | hx
    · exact ih x hx
    · simp at hx; subst hx; simp
  | pass now newest run l l' c c' log _ hs ih =>
    obtain ⟨kept, done, c'', e, p, k, -⟩ := C15_scan_treats_each_once newest limit run l c
    rw [hs] at e; injection e with e; injection e with e1 _
    intro x hx
    rw [e1] at hx
    obtain ⟨y, hy, rfl⟩ := List.mem_map.1 hx
    have hyl : y ∈ l := p.mem_iff.2 (by simp [hy])
    have := ih y hyl; have := k y hy
    simp only [bump]; omega

/-- **C16** Whatever the newest timestamps and run marker do, a request still parked after `now`
passes has been through at most `retry_count` passes since it was parked (so it leaves the list
at the latest in pass `retry_count + 1`), and a pass during which the run marker is off empties
the list. -/
theorem C16_bounded_passes (limit now : Nat) (l : List Parked) (h : Passes limit now l) :
    (∀ x ∈ l, now - x.born ≤ limit) ∧
    (∀ newest run c l' c' log, (∀ n, run n = false) →
      scan newest limit run l c = .ok (l', c', log) → l' = []) := by
  refine ⟨fun x hx => ?_, ?_⟩
  · have := passes_inv h x hx; omega
  · intro newest run c l' c' log hrun hs
    obtain ⟨kept, done, c'', e, p, k, -⟩ := C15_scan_treats_each_once newest limit run l c
    rw [hs] at e; injection e with e; injection e with e1 _
    subst e1
    cases kept with
    | nil => rfl
    | cons x xs =>
      obtain ⟨-, -, n, hn⟩ := k x (by simp)
      rw [hrun n] at hn; simp at hn

/-- Non-vacuity for C16: a request parked before the first pass and kept by two passes (limit 3). -/
example : ∃ l, Passes 3 2 l ∧ l = [⟨⟨7, 0, 0, 500, 0, 0⟩, 0, 2, 0⟩] :=
  ⟨_, .pass 1 100 (fun _ => true) _ _ ⟨0, 0⟩ ⟨0, 0⟩ [] (.pass 0 100 (fun _ => true) _ _ ⟨0, 0⟩ ⟨0, 0⟩ []
    (.park 0 [] ⟨7, 0, 0, 500, 0, 0⟩ 0 .start) rfl) rfl, rfl⟩

end Verif.Waiting
