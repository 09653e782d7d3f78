import Verif.WaitingProps
import Verif.TpHandlerProps
import Verif.RegistryProps
import Verif.ListLifeProps
/- Property C115: what a link keeps beside its latency buffer does not grow with time. -/
namespace Verif.Mem

/-- Entries of a list with values in an interval of length `n`, at most `m` for each value. -/
theorem length_le_mul {α : Type} (f : α → Nat) (m : Nat) :
    ∀ (n a : Nat) (l : List α), (∀ x ∈ l, a ≤ f x ∧ f x < a + n) →
      (∀ v, (l.filter (fun x => f x = v)).length ≤ m) → l.length ≤ m * n
  | 0, a, l, hr, _ => by
    cases l with
    | nil => simp
    | cons x l => have := hr x (by simp); omega
  | n + 1, a, l, hr, hm => by
    have hp := List.length_eq_countP_add_countP (p := fun x => decide (f x = a)) (l := l)
    rw [List.countP_eq_length_filter, List.countP_eq_length_filter] at hp
    have h1 := hm a
    have h2 := length_le_mul f m n (a + 1) (l.filter (fun x => !decide (f x = a)))
      (by
        intro x hx
        obtain ⟨hx, hne⟩ := List.mem_filter.1 hx
        have := hr x hx
        simp at hne
        omega)
      (by
        intro v
        rw [List.filter_filter]
        refine Nat.le_trans (List.Sublist.length_le ?_) (hm v)
        apply List.monotone_filter_right
        intro x hx
        simp at hx ⊢
        exact hx.1)
    have e : (l.filter (fun x => !decide (f x = a))).length =
        (l.filter (fun x => decide (¬ (decide (f x = a)) = true))).length := by
      congr 1
      apply List.filter_congr
      intro x _
      simp
    rw [Nat.mul_succ]
    omega

/-! ### The waiting list -/
open Waiting in
/-- Specification: a history of the waiting list in which at most `m` requests are parked between two passes
(`k` of them since the last pass). -/
inductive Paced (limit m : Nat) : Nat → Nat → List Parked → Prop where
  | start : Paced limit m 0 0 []
  | park (now k : Nat) (l : List Parked) (req : DataReq.Request) (sink : Nat) (h : Paced limit m now k l)
      (hk : k < m) : Paced limit m now (k + 1) (l ++ [⟨req, sink, 0, now⟩])
  | pass (now k newest : Nat) (run : Nat → Bool) (l l' : List Parked) (c c' : Ctr) (log : Log)
      (h : Paced limit m now k l) (hs : scan newest limit run l c = .ok (l', c', log)) :
      Paced limit m (now + 1) 0 l'

theorem Paced.passes {limit m now k : Nat} {l : List Waiting.Parked} (h : Paced limit m now k l) :
    Waiting.Passes limit now l := by
  induction h with
  | start => exact .start
  | park now k l req sink _ _ ih => exact .park now l req sink ih
  | pass now k newest run l l' c c' log _ hs ih => exact .pass now newest run l l' c c' log ih hs

theorem paced_count {limit m now k : Nat} {l : List Waiting.Parked} (h : Paced limit m now k l) :
    k ≤ m ∧ (∀ v, (l.filter (fun x => x.born = v)).length ≤ m) ∧
      (l.filter (fun x => x.born = now)).length ≤ k ∧ ∀ x ∈ l, x.born ≤ now := by
  induction h with
  | start => simp
  | park now k l req sink _ hk ih =>
    obtain ⟨h1, h2, h3, h4⟩ := ih
    refine ⟨hk, ?_, ?_, ?_⟩
    · intro v
      rw [List.filter_append, List.length_append]
      by_cases hv : now = v
      · subst hv; simp; omega
      · have := h2 v; simp [hv]; omega
    · rw [List.filter_append, List.length_append]
      simp; omega
    · intro x hx
      rcases List.mem_append.1 hx with hx | hx
      · exact h4 x hx
      · simp at hx; subst hx; simp
  | pass now k newest run l l' c c' log h hs ih =>
    obtain ⟨h1, h2, h3, h4⟩ := ih
    obtain ⟨kept, done, c'', e, p, -⟩ := Waiting.C15_scan_treats_each_once newest limit run l c
    rw [hs] at e; injection e with e; injection e with e1 _
    have hb : ∀ x : Waiting.Parked, (Waiting.bump x).born = x.born := fun _ => rfl
    have hmem : ∀ x ∈ kept, x ∈ l := fun x hx => p.mem_iff.2 (by simp [hx])
    refine ⟨Nat.zero_le _, ?_, ?_, ?_⟩
    · intro v
      rw [e1, List.filter_map, List.length_map]
      have := (p.filter (fun x => decide (x.born = v))).length_eq
      rw [List.filter_append, List.length_append] at this
      have h2' := h2 v
      have he : (kept.filter ((fun x => decide (x.born = v)) ∘ Waiting.bump)).length =
          (kept.filter (fun x => decide (x.born = v))).length := by
        congr 1
      omega
    · rw [e1, List.filter_map, List.length_map]
      have : kept.filter ((fun x => decide (x.born = now + 1)) ∘ Waiting.bump) = [] := by
        rw [List.filter_eq_nil_iff]
        intro x hx
        have := h4 x (hmem x hx)
        simp [Function.comp, hb]; omega
      simp [this]
    · intro x hx
      rw [e1] at hx
      obtain ⟨y, hy, rfl⟩ := List.mem_map.1 hx
      have := h4 y (hmem y hy)
      rw [hb]; omega

/-- **C115 (waiting list)** If at most `m` requests are parked between two passes, the waiting list never
holds more than `m` times (retry limit + 1) requests, however long the run. -/
theorem C115_waiting (limit m now k : Nat) (l : List Waiting.Parked) (h : Paced limit m now k l) :
    l.length ≤ m * (limit + 1) := by
  obtain ⟨_, h2, _, h4⟩ := paced_count h
  have h5 := (Waiting.C16_bounded_passes limit now l h.passes).1
  refine length_le_mul (·.born) m (limit + 1) (now - limit) l ?_ h2
  intro x hx
  have := h4 x hx
  have := h5 x hx
  omega

/-- Non-vacuity: two requests parked between the first passes, both kept once. -/
example : ∃ l, Paced 3 2 1 0 l ∧ l.length = 2 :=
  ⟨_, .pass 0 2 100 (fun _ => true) _ _ ⟨0, 0⟩ ⟨0, 0⟩ []
    (.park 0 1 _ ⟨8, 0, 0, 600, 0, 0⟩ 0 (.park 0 0 _ ⟨7, 0, 0, 500, 0, 0⟩ 0 .start (by decide)) (by decide)) rfl, rfl⟩

/-! ### The registry of frame errors -/

/-- **C115 (registry)** The registry never holds two intervals of the same name, and none of a name that was
never reported: with one name in the code ("MISSING_FRAMES") it holds at most one interval. -/
theorem C115_registry (h : List Registry.Op) :
    ((Registry.run [] h).map (·.1)).Nodup ∧
    (∀ e ∈ Registry.run [] h, ∃ iv, Registry.Op.add e.1 iv ∈ h) ∧
    (∀ name, (∀ n iv, Registry.Op.add n iv ∈ h → n = name) → (Registry.run [] h).length ≤ 1) := by
  have main : ((Registry.run [] h).map (·.1)).Nodup ∧
      ∀ e ∈ Registry.run [] h, ∃ iv, Registry.Op.add e.1 iv ∈ h := by
    induction h using List.reverseRecOn with
    | nil => simp [Registry.run]
    | append_singleton h op ih =>
      obtain ⟨ih1, ih2⟩ := ih
      rw [Registry.run_append]
      generalize Registry.run [] h = r at ih1 ih2
      cases op with
      | add n iv =>
        simp only [Registry.run, List.foldl_cons, List.foldl_nil, Registry.step, Registry.addError]
        refine ⟨?_, ?_⟩
        · rw [List.map_cons, List.nodup_cons]
          refine ⟨?_, (List.Sublist.map _ List.filter_sublist).nodup ih1⟩
          intro hn
          obtain ⟨e, he, hen⟩ := List.mem_map.1 hn
          have := (List.mem_filter.1 he).2
          simp at this
          exact this hen
        · intro e he
          rcases List.mem_cons.1 he with rfl | he
          · exact ⟨iv, by simp⟩
          · obtain ⟨iv', hiv⟩ := ih2 e (List.mem_filter.1 he).1
            exact ⟨iv', by simp [hiv]⟩
      | removeUntil t =>
        simp only [Registry.run, List.foldl_cons, List.foldl_nil, Registry.step, Registry.removeErrorsUntil]
        refine ⟨(List.Sublist.map _ List.filter_sublist).nodup ih1, ?_⟩
        intro e he
        obtain ⟨iv', hiv⟩ := ih2 e (List.mem_filter.1 he).1
        exact ⟨iv', by simp [hiv]⟩
  refine ⟨main.1, main.2, ?_⟩
  intro name hname
  obtain ⟨h1, h2⟩ := main
  generalize Registry.run [] h = r at h1 h2
  match r, h1, h2 with
  | [], _, _ => simp
  | [_], _, _ => simp
  | e :: f :: r, h1, h2 =>
    exfalso
    obtain ⟨iv, hi⟩ := h2 e (by simp)
    obtain ⟨iv', hi'⟩ := h2 f (by simp)
    simp [hname _ _ hi, hname _ _ hi'] at h1

/-- Non-vacuity: three reports of one name. -/
example : Registry.run [] [.add "MISSING_FRAMES" ⟨1, 2⟩, .add "MISSING_FRAMES" ⟨5, 6⟩, .removeUntil 3,
    .add "MISSING_FRAMES" ⟨7, 9⟩] = [("MISSING_FRAMES", ⟨7, 9⟩)] := by decide

/-! ### Pending trigger primitives -/
section tp
open TpHandler
variable {α : Type}

theorem run_weaken {ts : α → Nat} {pick : List α → Option (α × List α)} {c : Cfg} {p : Nat → Nat → Prop}
    {s : St α} {acc : List α} {last ls : Nat} (h : Run ts pick c p s acc last ls) :
    Run ts pick c (fun _ _ => True) s acc last ls := by
  induction h with
  | reset now => exact .reset now
  | add s acc last ls now tp _ hm hb ih => exact .add s acc last ls now tp ih hm hb
  | send s s' acc last ls now okTp okSet _ hm _ he ih => exact .send s s' acc last ls now okTp okSet ih hm trivial he

theorem pending_recent {ts : α → Nat} {pick : List α → Option (α × List α)} (hp : PickSpec ts pick) {c : Cfg}
    (hw : 0 < c.window) {s : St α} {acc : List α} {last ls : Nat}
    (h : Run ts pick c (fun a b => b ≤ a + c.window) s acc last ls) :
    ls ≤ last ∧ ∀ b ∈ s.buf, ls ≤ ts b + 2 * c.window + c.timeout := by
  induction h with
  | reset now => simp [fresh]
  | add s acc last ls now tp h hm hb ih =>
    refine ⟨by omega, ?_⟩
    intro b hb'
    have hu : Search.u64 (ts tp + c.timeout) = ts tp + c.timeout := by
      simp only [Search.u64]; omega
    simp only [addTp, hu] at hb'
    split at hb'
    · rcases List.mem_cons.1 hb' with rfl | hb'
      · omega
      · exact ih.2 b hb'
    · exact ih.2 b hb'
  | send s s' acc last ls now okTp okSet h hm hp' he ih =>
    exact ⟨Nat.le_refl _, fun b hb => (C59_bounded_latency ts pick hp c hw _ _ _
      (.send s s' acc last ls now okTp okSet h hm hp' he) b hb).2⟩

/-- **C115 (pending primitives)** If attempts to send are at most a window apart, at most `m` accepted
primitives start at the same time, none starts more than `f` after the present and the last attempt was at most
`d` ago, then no more than `m · (2 · window + timeout + f + d + 1)` primitives are pending, however long the
run. -/
theorem C115_pending (ts : α → Nat) (pick : List α → Option (α × List α)) (hp : PickSpec ts pick) (c : Cfg)
    (hw : 0 < c.window) (s : St α) (acc : List α) (last ls m f d : Nat)
    (h : Run ts pick c (fun a b => b ≤ a + c.window) s acc last ls)
    (hm : ∀ t, (acc.filter (fun b => ts b = t)).length ≤ m) (hf : ∀ b ∈ acc, ts b ≤ last + f)
    (hd : last ≤ ls + d) :
    s.buf.length ≤ m * (2 * c.window + c.timeout + f + d + 1) := by
  obtain ⟨hls, hrec⟩ := pending_recent hp hw h
  have hperm := (C29_accepted_sent_or_pending ts pick hp c s acc last ls (run_weaken h)).1
  refine length_le_mul ts m _ (ls - (2 * c.window + c.timeout)) s.buf ?_ ?_
  · intro b hb
    have h1 := hrec b hb
    have h2 := hf b (hperm.mem_iff.2 (by simp [hb]))
    omega
  · intro t
    have e := (hperm.filter (fun b => decide (ts b = t))).length_eq
    rw [List.filter_append, List.length_append] at e
    have := hm t
    omega

/-- Non-vacuity: `demo_run` is such a history, with two primitives pending. -/
example : ∃ s acc, Run (α := Tp) Fin.val pick1 demoC (fun a b => b ≤ a + 10) s acc 50 50 ∧ s.buf.length = 2 := by
  obtain ⟨s, acc, h, -, -, hb⟩ := demo_run
  exact ⟨s, acc, h, by simp [hb]⟩

/-- One attempt sends at most one primitive if all start at different multiples of the window. -/
theorem send_one (pick : List Nat → Option (Nat × List Nat)) (hp : PickSpec id pick) (s : St Nat) (now : Nat)
    (hn : s.buf.Nodup) (h10 : ∀ b ∈ s.buf, b % 10 = 0 ∧ b < 9223372036854775808) :
    ∃ s', trySend id pick ⟨20, 10⟩ s now (fun _ => true) true = .ok s' ∧
      s.buf.length ≤ s'.buf.length + 1 := by
  unfold trySend
  cases hpk : pick s.buf with
  | none => exact ⟨s, rfl, by omega⟩
  | some ar =>
    obtain ⟨a, r⟩ := ar
    simp only [id]
    by_cases ht : Search.u64 (Search.u64 (a + 10) + 20) < now
    · rw [if_pos ht, if_neg (by decide)]
      obtain ⟨hperm, hmin⟩ := (hp s.buf).2 a r hpk
      have ha := h10 a (hperm.mem_iff.2 (by simp))
      have e : Search.u64 (Search.u64 (a / 10 * 10) + 10) = a + 10 := by
        simp only [Search.u64]; omega
      rw [e]
      obtain ⟨hd, hlt, -, -⟩ := drain_spec id pick hp (a + 10) s.buf.length s.buf (Nat.le_refl _)
      refine ⟨_, rfl, ?_⟩
      simp only
      have hnd : ((drain id pick (a + 10) s.buf.length s.buf).1 ++
          (drain id pick (a + 10) s.buf.length s.buf).2).Nodup := hd.nodup_iff.1 hn
      have hlen := hd.length_eq
      rw [List.length_append] at hlen
      have h1 : ∀ x ∈ (drain id pick (a + 10) s.buf.length s.buf).1, x = a := by
        intro x hx
        have hxl := hlt x hx
        have hxb : x ∈ s.buf := hd.mem_iff.2 (by simp [hx])
        have hxm := hmin x hxb
        have := h10 x hxb
        simp only [id] at hxl hxm
        omega
      have h2 := (List.nodup_append.1 hnd).1
      generalize (drain id pick (a + 10) s.buf.length s.buf).1 = d at h1 h2 hlen
      have : d.length ≤ 1 := by
        match d, h1, h2 with
        | [], _, _ => simp
        | [_], _, _ => simp
        | x :: y :: d, h1, h2 =>
          exfalso
          have hx := h1 x (by simp)
          have hy := h1 y (by simp)
          simp [hx, hy] at h2
      omega
    · rw [if_neg ht]
      exact ⟨s, rfl, by omega⟩

/-- **C115 is false without the pace**: with attempts two windows apart and one primitive per window, arriving
in time and in order, any number of primitives is pending sooner or later, because an attempt sends one set
only. -/
theorem C115_slow_sending_counterexample (pick : List Nat → Option (Nat × List Nat)) (hp : PickSpec id pick)
    (n : Nat) (hn : n < 4294967296) :
    ∃ s acc, Run id pick ⟨20, 10⟩ (fun a b => b ≤ a + 2 * 10) s acc (20 * n) (20 * n) ∧
      acc.Nodup ∧ (∀ b ∈ acc, b ≤ 20 * n) ∧ (∀ b ∈ acc, b % 10 = 0) ∧ n ≤ s.buf.length := by
  induction n with
  | zero => exact ⟨fresh, [], .reset 0, List.nodup_nil, by simp, by simp, by simp⟩
  | succ n ih =>
    obtain ⟨s, acc, h, hnd, hle, h10, hlen⟩ := ih (by omega)
    have add : ∀ (s : St Nat) (t : Nat), t < 9223372036854775808 →
        addTp id ⟨20, 10⟩ s t t = ({ s with buf := t :: s.buf }, true) := by
      intro s t ht
      have : Search.u64 (t + 20) > t := by simp only [Search.u64]; omega
      simp [addTp, this]
    have h1 := Run.add s acc _ _ (20 * n + 10) (20 * n + 10) h (by omega) (by simp only [id]; omega)
    rw [add s _ (by omega)] at h1
    have h2 := Run.add _ _ _ _ (20 * n + 20) (20 * n + 20) h1 (by omega) (by simp only [id]; omega)
    rw [add _ _ (by omega)] at h2
    simp only [if_true] at h2
    have hnd2 : ((20 * n + 20) :: (20 * n + 10) :: acc).Nodup := by
      rw [List.nodup_cons, List.nodup_cons]
      refine ⟨?_, ?_, hnd⟩
      · intro hm
        rcases List.mem_cons.1 hm with hm | hm
        · omega
        · have := hle _ hm; omega
      · intro hm; have := hle _ hm; omega
    have h10' : ∀ b ∈ (20 * n + 20) :: (20 * n + 10) :: acc, b % 10 = 0 := by
      intro b hb
      rcases List.mem_cons.1 hb with rfl | hb
      · omega
      · rcases List.mem_cons.1 hb with rfl | hb
        · omega
        · exact h10 b hb
    have hle' : ∀ b ∈ (20 * n + 20) :: (20 * n + 10) :: acc, b ≤ 20 * (n + 1) := by
      intro b hb
      rcases List.mem_cons.1 hb with rfl | hb
      · omega
      · rcases List.mem_cons.1 hb with rfl | hb
        · omega
        · have := hle b hb; omega
    have hperm := (C29_accepted_sent_or_pending id pick hp _ _ _ _ _ (run_weaken h2)).1
    have hbuf := hperm.nodup_iff.1 hnd2
    obtain ⟨s', e, hl⟩ := send_one pick hp _ (20 * n + 20) (List.nodup_append.1 hbuf).1 (by
      intro b hb
      have hb' := hperm.mem_iff.2 (List.mem_append_left _ hb)
      exact ⟨h10' b hb', by have := hle' b hb'; omega⟩)
    have h3 := Run.send _ s' _ _ _ (20 * n + 20) (fun _ => true) true h2 (by omega) (by omega) e
    simp only [List.length_cons] at hl
    exact ⟨s', _, h3, hnd2, hle', h10', by omega⟩

/-- A choice function for the counterexample: the list's least element. -/
def pickMin (l : List Nat) : Option (Nat × List Nat) :=
  match l.min? with
  | none => none
  | some a => some (a, l.erase a)

/-- Non-vacuity: there is such a choice function. -/
example : PickSpec id pickMin := by
  intro l
  cases hm : l.min? with
  | none => exact ⟨by simp [pickMin, hm, List.min?_eq_none_iff.1 hm], by simp [pickMin, hm]⟩
  | some a =>
    obtain ⟨h1, h2⟩ := List.min?_eq_some_iff.1 hm
    refine ⟨by simp [pickMin, hm]; intro h; simp [h] at h1, ?_⟩
    intro b r h
    simp only [pickMin, hm] at h
    injection h with h; injection h with e1 e2
    subst e1 e2
    exact ⟨List.perm_cons_erase h1, h2⟩

end tp

/-! ### The sorted buffer of photon-detector links -/

theorem sorted_length {α : Type} (key : α → Nat) (l : List α) (hs : SkipList.StrictSorted key l) (m : Nat)
    (h : SkipList.span key l ≤ m) : l.length ≤ m + 1 := by
  cases l with
  | nil => simp
  | cons a r =>
    have hmax : ∀ (r : List α) (a : α), SkipList.StrictSorted key (a :: r) →
        ∃ z, (a :: r).getLast? = some z ∧ key a + r.length ≤ key z := by
      intro r
      induction r with
      | nil => intro a _; exact ⟨a, rfl, by simp⟩
      | cons b r ih =>
        intro a hs
        rw [SkipList.StrictSorted, List.pairwise_cons] at hs
        obtain ⟨z, hz, hle⟩ := ih b hs.2
        have := hs.1 b (by simp)
        exact ⟨z, by rw [← hz]; rfl, by simp; omega⟩
    obtain ⟨z, hz, hle⟩ := hmax r a hs
    simp only [SkipList.span, hz, List.head?_cons] at h
    simp; omega

/-- **C115 (sorted buffer)** Whatever arrived in whatever order, after a cleanup the sorted buffer of a
photon-detector link holds at most one payload per tick of the span it keeps: at most `m + 1`; each arrival
adds at most one. -/
theorem C115_sorted_buffer (c : ListLife.Cfg) (hc : 0 < c.nf) (hm : 0 < c.m) (s s' : ListLife.St)
    (h : ListLife.Reach c s) (he : ListLife.clean c s = .ok s') :
    s'.l.length ≤ c.m + 1 ∧ ∀ t, (ListLife.receive s' t).l.length ≤ s'.l.length + 1 := by
  have hs := (ListLife.inv_reach hc hm h).sorted
  obtain ⟨r, removed, e, -, -, hsp, -, -, hr⟩ := SkipList.C52_daphne_cleanup id c.m hm s.l hs
  simp only [ListLife.clean, e, Outcome.bind_ok] at he
  injection he with he
  subst he
  refine ⟨sorted_length id r hr c.m hsp, ?_⟩
  intro t
  simp only [ListLife.receive]
  have := SkipList.insert_length id t r
  simp only [SkipList.write]
  split at this <;> omega

/-- Non-vacuity: three payloads, the span kept being 10 ticks: a cleanup leaves two. -/
example : SkipList.daphneCleanup id 10 [1, 100, 105] = .ok [100, 105] := by decide

end Verif.Mem
