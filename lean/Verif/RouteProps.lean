import Verif.RouteModel
/- Property C83: a request is answered on the response queue that belongs to its request queue. -/
namespace Verif.Route
open Verif.DataReq

theorem setupFrom_ok (n : Names) : ∀ fuel index l, setupFrom n fuel index = .ok l →
    (∀ k, l[k]? = if k < l.length then some (index + k) else none) ∧
    (∀ k, k < l.length → index + k ∈ n.req ∧ index + k ∈ n.resp) ∧ index + l.length ∉ n.req := by
  intro fuel
  induction fuel with
  | zero => intro index l h; simp [setupFrom] at h
  | succ fuel ih =>
    intro index l h
    simp only [setupFrom] at h
    split at h
    · next h1 =>
      split at h
      · next h2 =>
        cases hr : setupFrom n fuel (index + 1) with
        | ok rest =>
          rw [hr] at h
          simp only [Outcome.bind_ok, Outcome.ok.injEq] at h
          subst h
          obtain ⟨i1, i2, i3⟩ := ih _ _ hr
          refine ⟨?_, ?_, ?_⟩
          · intro k
            cases k with
            | zero => simp
            | succ k => simp only [List.getElem?_cons_succ, i1 k, List.length_cons, Nat.add_lt_add_iff_right]; congr 2; omega
          · intro k hk
            cases k with
            | zero => exact ⟨h1, h2⟩
            | succ k =>
              have := i2 k (by simp at hk; omega)
              rwa [show index + (k + 1) = index + 1 + k by omega]
          · rwa [List.length_cons, show index + (rest.length + 1) = index + 1 + rest.length by omega]
        | ub u => rw [hr] at h; simp at h
        | throws x => rw [hr] at h; simp at h
      · simp at h
    · next h1 =>
      simp only [Outcome.ok.injEq] at h
      subst h
      exact ⟨by simp, by simp, by simpa using h1⟩

/-- Removing an index leaves a shorter list. -/
theorem filter_len (l : List Nat) (i : Nat) (h : i ∈ l) : (l.filter (fun x => decide (i < x))).length < (l.filter (fun x => decide (i ≤ x))).length := by
  induction l with
  | nil => simp at h
  | cons a l ih =>
    have hle : (l.filter (fun x => decide (i < x))).length ≤ (l.filter (fun x => decide (i ≤ x))).length := by
      have hsub : l.filter (fun x => decide (i < x)) = (l.filter (fun x => decide (i ≤ x))).filter (fun x => decide (i < x)) := by
        rw [List.filter_filter]
        apply List.filter_congr
        intro x _
        by_cases hx : i < x
        · simp [hx, Nat.le_of_lt hx]
        · simp [hx]
      rw [hsub]; exact List.length_filter_le _ _
    rcases List.mem_cons.1 h with rfl | hm
    · simp only [List.filter_cons, Nat.lt_irrefl, decide_false, Bool.false_eq_true, if_false, Nat.le_refl, decide_true,
        if_true, List.length_cons]
      omega
    · have := ih hm
      by_cases h1 : i < a
      · simp only [List.filter_cons, h1, Nat.le_of_lt h1, decide_true, if_true, List.length_cons]; omega
      · by_cases h2 : i ≤ a
        · simp only [List.filter_cons, h1, h2, decide_true, decide_false, Bool.false_eq_true, if_true, if_false,
            List.length_cons]; omega
        · simp only [List.filter_cons, h1, h2, decide_false, Bool.false_eq_true, if_false]; exact this

theorem setupFrom_total (n : Names) : ∀ fuel index, (n.req.filter (fun x => decide (index ≤ x))).length < fuel →
    setupFrom n fuel index ≠ .throws .hang ∧ ∀ u, setupFrom n fuel index ≠ .ub u := by
  intro fuel
  induction fuel with
  | zero => intro index h; omega
  | succ fuel ih =>
    intro index h
    simp only [setupFrom]
    split
    · next h1 =>
      split
      · have hlt : (n.req.filter (fun x => decide (index + 1 ≤ x))).length < fuel := by
          have := filter_len n.req index h1
          have e : (fun x => decide (index + 1 ≤ x)) = (fun x => decide (index < x)) := rfl
          rw [e]; omega
        obtain ⟨a, b⟩ := ih (index + 1) hlt
        cases hr : setupFrom n fuel (index + 1) with
        | ok rest => simp
        | ub u => exact absurd hr (b u)
        | throws x =>
          simp only [Outcome.bind_throws]
          rw [hr] at a
          exact ⟨by simpa using a, by simp⟩
      · simp
    · simp

/-- **C83 (set-up)** Setting up the queues ends; it succeeds exactly if every request queue it reaches has a response queue, and
then it serves the request queues 0, 1, … up to the first index that is not named, each paired with the response
queue of the same index. -/
theorem C83_setup (n : Names) :
    (∀ l, setup n = .ok l → ∃ k, l = List.range k ∧ (∀ i, i < k → i ∈ n.req ∧ i ∈ n.resp) ∧ k ∉ n.req) ∧
    setup n ≠ .throws .hang ∧ (∀ u, setup n ≠ .ub u) := by
  have htot := setupFrom_total n (n.req.length + 1) 0 (by
    have := List.length_filter_le (fun x => decide (0 ≤ x)) n.req; omega)
  refine ⟨?_, htot.1, htot.2⟩
  intro l hl
  obtain ⟨h1, h2, h3⟩ := setupFrom_ok n _ _ _ hl
  refine ⟨l.length, ?_, ?_, by simpa using h3⟩
  · apply List.ext_getElem?
    intro k
    rw [h1 k]
    split
    · next hk => simp [hk]
    · next hk => simp; omega
  · intro i hi; simpa using h2 i hi

/-- **C83 (all queues served, partial)** If the request queues named are numbered without a gap, all are served. -/
theorem C83_all_served_partial (n : Names) (m : Nat) (hgap : ∀ i, i ∈ n.req ↔ i < m) (l : List Nat)
    (hl : setup n = .ok l) : l = List.range m := by
  obtain ⟨k, rfl, h1, h2⟩ := (C83_setup n).1 l hl
  have : k = m := by
    rw [hgap] at h2
    rcases Nat.lt_or_ge k m with h | h
    · exact absurd h h2
    · rcases Nat.lt_or_ge m k with h' | h'
      · have := (hgap m).1 (h1 m h').1; omega
      · omega
  rw [this]

example : setup ⟨[1, 0], [0, 1, 7]⟩ = .ok [0, 1] ∧ ∀ i, i ∈ [1, 0] ↔ i < 2 := by
  refine ⟨by decide, fun i => ?_⟩
  simp; omega

/-- **C83 is false of the code** for numbers with a gap: the queue behind the gap is silently never read. -/
theorem C83_gap_counterexample : setup ⟨[0, 2], [0, 2]⟩ = .ok [0] := by decide

/-! ### Routing -/

/-- The request and sink a fragment names. -/
def jobOf (f : Sent) : Job :=
  ⟨⟨f.header.trigNum, f.header.trigTs, f.header.wBegin, f.header.wEnd, f.header.run, f.header.seq⟩, f.sink⟩

/-- Conservation of requests. -/
structure Inv (n : Nat) (s : St) : Prop where
  count : ∀ dr i, s.asked.count ⟨dr, i⟩ + s.faked.count ⟨dr, i⟩ =
    (s.queue i).count dr + s.pool.count ⟨dr, i⟩ + s.waiting.count ⟨dr, i⟩ + (s.out.map jobOf).count ⟨dr, i⟩ +
      s.lost.count ⟨dr, i⟩ + s.dropped.count ⟨dr, i⟩
  sink : ∀ j, j ∈ s.pool ∨ j ∈ s.waiting ∨ j ∈ s.out.map jobOf → j.sink < n

theorem count_job (q : List Request) (dr : Request) (i k : Nat) :
    (q.map (fun dr => (⟨dr, i⟩ : Job))).count ⟨dr, k⟩ = if k = i then q.count dr else 0 := by
  induction q with
  | nil => simp
  | cons a q ih =>
    rw [List.map_cons, List.count_cons, ih, List.count_cons]
    by_cases h : k = i
    · subst h
      by_cases ha : a = dr
      · subst ha; simp
      · have : (⟨a, k⟩ : Job) ≠ ⟨dr, k⟩ := fun e => ha (by injection e)
        simp [ha, this]
    · have : (⟨a, i⟩ : Job) ≠ ⟨dr, k⟩ := fun e => h (by injection e with _ e; exact e.symm)
      simp [h, this]

theorem count_single (dr dr' : Request) (i k : Nat) :
    [(⟨dr', i⟩ : Job)].count ⟨dr, k⟩ = if k = i then [dr'].count dr else 0 := count_job [dr'] dr i k

theorem inv_step (h : Handler) (geo : GeoId) (ft n : Nat) (s s' : St) (hi : Inv n s) (st : Step h geo ft n s s') :
    Inv n s' := by
  obtain ⟨hc, hs⟩ := hi
  -- issuing a request whose conservation is otherwise short by one
  have hissue : ∀ (s : St) (ok : Bool) (dr : Request) (i : Nat), i < n →
      (∀ j, j ∈ s.pool ∨ j ∈ s.waiting ∨ j ∈ s.out.map jobOf → j.sink < n) →
      (∀ d k, s.asked.count ⟨d, k⟩ + s.faked.count ⟨d, k⟩ =
        (s.queue k).count d + s.pool.count ⟨d, k⟩ + s.waiting.count ⟨d, k⟩ + (s.out.map jobOf).count ⟨d, k⟩ +
          s.lost.count ⟨d, k⟩ + s.dropped.count ⟨d, k⟩ + [(⟨dr, i⟩ : Job)].count ⟨d, k⟩) →
      Inv n (issue h geo ft ok s dr i) := by
    intro s ok dr i hin hs hc
    unfold issue
    cases h
    · refine ⟨?_, ?_⟩
      · intro d k; have := hc d k
        simp only [List.count_append] at this ⊢; omega
      · rintro j (hj | hj)
        · rcases List.mem_append.1 hj with hj | hj
          · exact hs j (Or.inl hj)
          · simp only [List.mem_singleton] at hj; subst hj; exact hin
        · exact hs j (Or.inr hj)
    · cases ok
      · refine ⟨?_, hs⟩
        intro d k; have := hc d k
        simp only [Bool.false_eq_true, if_false, List.count_append] at this ⊢; omega
      · have e : jobOf ⟨i, (createEmpty Unit geo ft dr).header⟩ = ⟨dr, i⟩ := rfl
        refine ⟨?_, ?_⟩
        · intro d k; have := hc d k
          simp only [if_true, List.map_append, List.map_cons, List.map_nil, e, List.count_append] at this ⊢; omega
        · simp only [if_true, List.map_append, List.map_cons, List.map_nil, e, List.mem_append]
          rintro j (hj | hj | hj | hj)
          · exact hs j (Or.inl hj)
          · exact hs j (Or.inr (Or.inl hj))
          · exact hs j (Or.inr (Or.inr hj))
          · simp only [List.mem_singleton] at hj; subst hj; exact hin
  cases st with
  | request i dr =>
    refine ⟨?_, hs⟩
    intro d k; have := hc d k
    simp only [List.count_append, count_single] at this ⊢
    by_cases hk : k = i
    · simp only [hk, if_true, List.count_append] at this ⊢; omega
    · simp only [hk, if_false] at this ⊢; omega
  | take i dr rest ok hin hq =>
    refine hissue { s with queue := fun j => if j = i then rest else s.queue j } ok dr i hin hs ?_
    intro d k; have := hc d k
    simp only [count_single]
    by_cases hk : k = i
    · subst hk
      rw [hq, List.count_cons] at this
      simp only [if_true, List.count_cons, List.count_nil] at this ⊢; omega
    · simp only [hk, if_false] at this ⊢; omega
  | fake i dr ok hin =>
    refine hissue { s with faked := s.faked ++ [⟨dr, i⟩] } ok dr i hin hs ?_
    intro d k; have := hc d k
    simp only [List.count_append] at this ⊢; omega
  | answer pre post j bad ok hp =>
    have e : jobOf ⟨j.sink, { createHeader geo ft j.dr with dataNotFound := bad }⟩ = j := rfl
    have hj : j.sink < n := hs j (Or.inl (by rw [hp]; simp))
    have hpool : ∀ x, x ∈ pre ++ post → x.sink < n := fun x hx => hs x (Or.inl (by rw [hp]; simp at hx ⊢; grind))
    refine ⟨?_, ?_⟩
    · intro d k; have := hc d k
      rw [hp] at this
      cases ok
      · simp only [Bool.false_eq_true, if_false, List.count_append, List.count_cons, List.count_nil] at this ⊢
        omega
      · simp only [if_true, List.map_append, List.map_cons, List.map_nil, e, List.count_append, List.count_cons,
          List.count_nil] at this ⊢
        omega
    · rintro x (hx | hx | hx)
      · exact hpool x hx
      · exact hs x (Or.inr (Or.inl hx))
      · cases ok
        · exact hs x (Or.inr (Or.inr hx))
        · simp only [if_true, List.map_append, List.map_cons, List.map_nil, e, List.mem_append,
            List.mem_singleton] at hx
          rcases hx with hx | rfl
          · exact hs x (Or.inr (Or.inr hx))
          · exact hj
  | park pre post j hp =>
    have hj : j.sink < n := hs j (Or.inl (by rw [hp]; simp))
    refine ⟨?_, ?_⟩
    · intro d k; have := hc d k
      rw [hp] at this
      simp only [List.count_append, List.count_cons, List.count_nil] at this ⊢
      omega
    · rintro x (hx | hx | hx)
      · exact hs x (Or.inl (by rw [hp]; simp at hx ⊢; grind))
      · rcases List.mem_append.1 hx with hx | hx
        · exact hs x (Or.inr (Or.inl hx))
        · simp only [List.mem_singleton] at hx; subst hx; exact hj
      · exact hs x (Or.inr (Or.inr hx))
  | retry pre post j w' hp hw =>
    have hj : j.sink < n := hs j (Or.inr (Or.inl (by rw [hp]; simp)))
    refine ⟨?_, ?_⟩
    · rw [List.perm_iff_count] at hw
      intro d k; have := hc d k; have h2 := hw ⟨d, k⟩
      rw [hp] at this
      simp only [List.count_append, List.count_cons, List.count_nil] at this h2 ⊢
      omega
    · rintro x (hx | hx | hx)
      · rcases List.mem_append.1 hx with hx | hx
        · exact hs x (Or.inl hx)
        · simp only [List.mem_singleton] at hx; subst hx; exact hj
      · exact hs x (Or.inr (Or.inl (by rw [hp]; have := hw.mem_iff.1 hx; simp at this ⊢; grind)))
      · exact hs x (Or.inr (Or.inr hx))
  | giveUp pre post j w' ok hp hw =>
    have e : jobOf ⟨j.sink, (createEmpty Unit geo ft j.dr).header⟩ = j := rfl
    have hj : j.sink < n := hs j (Or.inr (Or.inl (by rw [hp]; simp)))
    refine ⟨?_, ?_⟩
    · rw [List.perm_iff_count] at hw
      intro d k; have := hc d k; have h2 := hw ⟨d, k⟩
      rw [hp] at this
      cases ok
      · simp only [Bool.false_eq_true, if_false, List.count_append, List.count_cons, List.count_nil] at this h2 ⊢
        omega
      · simp only [if_true, List.map_append, List.map_cons, List.map_nil, e, List.count_append, List.count_cons,
          List.count_nil] at this h2 ⊢
        omega
    · rintro x (hx | hx | hx)
      · exact hs x (Or.inl hx)
      · exact hs x (Or.inr (Or.inl (by rw [hp]; have := hw.mem_iff.1 hx; simp at this ⊢; grind)))
      · cases ok
        · exact hs x (Or.inr (Or.inr hx))
        · simp only [if_true, List.map_append, List.map_cons, List.map_nil, e, List.mem_append,
            List.mem_singleton] at hx
          rcases hx with hx | rfl
          · exact hs x (Or.inr (Or.inr hx))
          · exact hj
  | clear i hin =>
    refine ⟨?_, hs⟩
    intro d k; have := hc d k
    simp only [List.count_append, count_job]
    by_cases hk : k = i
    · subst hk; simp only [if_true, List.count_nil]; omega
    · simp only [hk, if_false]; omega

theorem inv_reach (h : Handler) (geo : GeoId) (ft n : Nat) (s : St) (r : Reach h geo ft n s) : Inv n s := by
  induction r with
  | init => exact ⟨by intro dr i; simp [St.init], by intro j hj; simp [St.init] at hj⟩
  | step s s' _ st ih => exact inv_step h geo ft n s s' ih st

/-- **C83 (routing)** In every execution, for both handlers, and for each request and queue number: the times the
request was sent to that request queue (or made up for that response queue as a fake trigger) are the times it was
answered on the response queue of the same number, plus those where it is still on its way, where its fragment was
lost on a full response queue, or where it was discarded at the end of the run. In particular no request is
answered on another queue or more often than it was sent. -/
theorem C83_routing (h : Handler) (geo : GeoId) (ft n : Nat) (s : St) (r : Reach h geo ft n s) (dr : Request)
    (i : Nat) :
    s.asked.count ⟨dr, i⟩ + s.faked.count ⟨dr, i⟩ =
      (s.out.map jobOf).count ⟨dr, i⟩ + ((s.queue i).count dr + s.pool.count ⟨dr, i⟩ + s.waiting.count ⟨dr, i⟩) +
        s.lost.count ⟨dr, i⟩ + s.dropped.count ⟨dr, i⟩ := by
  have := (inv_reach h geo ft n s r).count dr i
  omega

/-- Nothing is sent on a queue that was not set up. -/
theorem C83_own_queues (h : Handler) (geo : GeoId) (ft n : Nat) (s : St) (r : Reach h geo ft n s) (f : Sent)
    (hf : f ∈ s.out) : f.sink < n :=
  (inv_reach h geo ft n s r).sink (jobOf f) (Or.inr (Or.inr (List.mem_map.2 ⟨f, hf, rfl⟩)))

/-- **C84 (trigger primitive links)** The handler of trigger primitive links never has a request on its way: each request is
answered while it is taken from its queue, by one fragment that carries the error bit, the address of the link and
the fields of the request; the only alternatives are a full response queue and the end of the run. -/
theorem C84_empty_handler (geo : GeoId) (ft n : Nat) (s : St) (r : Reach .empty geo ft n s) :
    s.pool = [] ∧ s.waiting = [] ∧ (∀ f ∈ s.out, f.header.dataNotFound = true ∧ f.header.geo = geo ∧ f.header.fragType = ft) ∧
    ∀ dr i, s.asked.count ⟨dr, i⟩ + s.faked.count ⟨dr, i⟩ = (s.out.map jobOf).count ⟨dr, i⟩ + (s.queue i).count dr +
      s.lost.count ⟨dr, i⟩ + s.dropped.count ⟨dr, i⟩ := by
  have key : s.pool = [] ∧ s.waiting = [] ∧
      (∀ f ∈ s.out, f.header.dataNotFound = true ∧ f.header.geo = geo ∧ f.header.fragType = ft) := by
    induction r with
    | init => exact ⟨rfl, rfl, by intro f hf; simp [St.init] at hf⟩
    | step s s' _ st ih =>
      obtain ⟨h1, h2, h3⟩ := ih
      have hissue : ∀ (q : Nat → List Request) (fk : List Job) (ok : Bool) (dr : Request) (i : Nat),
          (issue .empty geo ft ok { s with queue := q, faked := fk } dr i).pool = [] ∧
          (issue .empty geo ft ok { s with queue := q, faked := fk } dr i).waiting = [] ∧
          ∀ f ∈ (issue .empty geo ft ok { s with queue := q, faked := fk } dr i).out,
            f.header.dataNotFound = true ∧ f.header.geo = geo ∧ f.header.fragType = ft := by
        intro q fk ok dr i
        cases ok
        · exact ⟨h1, h2, h3⟩
        · refine ⟨h1, h2, ?_⟩
          intro f hf
          rcases List.mem_append.1 hf with hf | hf
          · exact h3 f hf
          · simp only [List.mem_singleton] at hf; subst hf; exact ⟨rfl, rfl, rfl⟩
      cases st with
      | request i dr => exact ⟨h1, h2, h3⟩
      | take i dr rest ok hin hq => exact hissue _ s.faked ok dr i
      | fake i dr ok hin => exact hissue s.queue _ ok dr i
      | answer pre post j bad ok hp => rw [h1] at hp; simp at hp
      | park pre post j hp => rw [h1] at hp; simp at hp
      | retry pre post j w' hp hw => rw [h2] at hp; simp at hp
      | giveUp pre post j w' ok hp hw => rw [h2] at hp; simp at hp
      | clear i hin => exact ⟨h1, h2, h3⟩
  obtain ⟨h1, h2, h3⟩ := key
  refine ⟨h1, h2, h3, ?_⟩
  intro dr i
  have := C83_routing .empty geo ft n s r dr i
  rw [h1, h2] at this
  simpa using this

/-- Requests of a queue, in order. -/
def onQueue (i : Nat) (l : List Job) : List Request := (l.filter (fun j => decide (j.sink = i))).map Job.dr

theorem onQueue_append (i : Nat) (a b : List Job) : onQueue i (a ++ b) = onQueue i a ++ onQueue i b := by
  simp [onQueue, List.filter_append]

theorem onQueue_single (i k : Nat) (dr : Request) : onQueue i [⟨dr, k⟩] = if k = i then [dr] else [] := by
  by_cases h : k = i <;> simp [onQueue, h]

theorem onQueue_map (i k : Nat) (q : List Request) :
    onQueue i (q.map (fun dr => ⟨dr, k⟩)) = if k = i then q else [] := by
  induction q with
  | nil => simp [onQueue]
  | cons a q ih =>
    rw [List.map_cons, show (⟨a, k⟩ : Job) :: q.map (fun dr => ⟨dr, k⟩) = [⟨a, k⟩] ++ q.map (fun dr => ⟨dr, k⟩) from rfl,
      onQueue_append, onQueue_single, ih]
    by_cases h : k = i <;> simp [h]

/-- **C84 (order)** As long as no queue is cleared (the end of the run) and no fake triggers are made, the answers on each response queue,
followed by the requests waiting in the request queue of the same number, are a subsequence of the requests sent to
that queue: nothing overtakes. -/
theorem C84_in_order (geo : GeoId) (ft n : Nat) (s : St) (r : Reach .empty geo ft n s) (hd : s.dropped = [])
    (hf : s.faked = []) (k : Nat) :
    (onQueue k (s.out.map jobOf) ++ s.queue k).Sublist (onQueue k s.asked) := by
  induction r with
  | init => simp [St.init, onQueue]
  | step s s' r st ih =>
    obtain ⟨h1, h2, -⟩ := C84_empty_handler geo ft n s r
    cases st with
    | request i dr =>
      have ih := ih hd hf
      simp only [onQueue_append, onQueue_single]
      by_cases hk : k = i
      · subst hk
        simp only [if_true, ← List.append_assoc]
        exact ih.append (List.Sublist.refl _)
      · have hk' : ¬ i = k := fun e => hk e.symm
        simpa [hk, hk'] using ih
    | take i dr rest ok hin hq =>
      have hd0 : s.dropped = [] := by cases ok <;> exact hd
      have hf0 : s.faked = [] := by cases ok <;> exact hf
      have ih := ih hd0 hf0
      cases ok
      · show (onQueue k (s.out.map jobOf) ++ (if k = i then rest else s.queue k)).Sublist (onQueue k s.asked)
        by_cases hk : k = i
        · subst hk
          rw [hq] at ih
          simp only [if_true]
          exact ((List.Sublist.refl _).append (List.sublist_cons_self _ _)).trans ih
        · simp only [hk, if_false]; exact ih
      · show (onQueue k ((s.out ++ [(⟨i, (createEmpty Unit geo ft dr).header⟩ : Sent)]).map jobOf) ++
          (if k = i then rest else s.queue k)).Sublist (onQueue k s.asked)
        have e : jobOf ⟨i, (createEmpty Unit geo ft dr).header⟩ = ⟨dr, i⟩ := rfl
        simp only [List.map_append, List.map_cons, List.map_nil, e, onQueue_append, onQueue_single]
        by_cases hk : k = i
        · subst hk
          rw [hq] at ih
          simpa using ih
        · have hk' : ¬ i = k := fun e => hk e.symm
          simpa [hk, hk'] using ih
    | fake i dr ok hin => cases ok <;> simp [issue] at hf
    | answer pre post j bad ok hp => rw [h1] at hp; simp at hp
    | park pre post j hp => rw [h1] at hp; simp at hp
    | retry pre post j w' hp hw => rw [h2] at hp; simp at hp
    | giveUp pre post j w' ok hp hw => rw [h2] at hp; simp at hp
    | clear i hin =>
      simp only [List.append_eq_nil_iff, List.map_eq_nil_iff] at hd
      have ih := ih hd.1 hf
      show (onQueue k (s.out.map jobOf) ++ (if k = i then [] else s.queue k)).Sublist (onQueue k s.asked)
      by_cases hk : k = i
      · subst hk; rw [hd.2] at ih; simpa using ih
      · simp only [hk, if_false]; exact ih

/-- Requests on two queues, one parked and retried, answered in the other order. -/
theorem demo : ∃ s, Reach .default ⟨1, 0, 3⟩ 2 2 s ∧ s.out.map jobOf =
    [⟨⟨5, 0, 10, 20, 1, 0⟩, 1⟩, ⟨⟨5, 0, 30, 40, 1, 0⟩, 0⟩] :=
  ⟨_, .step _ _ (.step _ _ (.step _ _ (.step _ _ (.step _ _ (.step _ _ (.step _ _ (.step _ _ .init
    (.request _ 0 ⟨5, 0, 30, 40, 1, 0⟩))
    (.request _ 1 ⟨5, 0, 10, 20, 1, 0⟩))
    (.take _ 0 ⟨5, 0, 30, 40, 1, 0⟩ [] true (by decide) rfl))
    (.take _ 1 ⟨5, 0, 10, 20, 1, 0⟩ [] true (by decide) rfl))
    (.park _ [] [⟨⟨5, 0, 10, 20, 1, 0⟩, 1⟩] ⟨⟨5, 0, 30, 40, 1, 0⟩, 0⟩ rfl))
    (.answer _ [] [] ⟨⟨5, 0, 10, 20, 1, 0⟩, 1⟩ false true rfl))
    (.retry _ [] [] ⟨⟨5, 0, 30, 40, 1, 0⟩, 0⟩ [] rfl (List.Perm.refl _)))
    (.answer _ [] [] ⟨⟨5, 0, 30, 40, 1, 0⟩, 0⟩ false true rfl), rfl⟩

/-- A trigger primitive link answers at once. -/
theorem demoEmpty : ∃ s, Reach .empty ⟨1, 0, 3⟩ 2 1 s ∧ s.out.map jobOf = [⟨⟨5, 0, 30, 40, 1, 0⟩, 0⟩] ∧ s.dropped = [] ∧
    s.faked = [] :=
  ⟨_, .step _ _ (.step _ _ .init (.request _ 0 ⟨5, 0, 30, 40, 1, 0⟩))
    (.take _ 0 ⟨5, 0, 30, 40, 1, 0⟩ [] true (by decide) rfl), rfl, rfl, rfl⟩

/-- **C84 is false of the code** at the end of a run: requests still in the queue are discarded without an answer. -/
theorem C84_dropped_counterexample : ∃ s, Reach .empty ⟨1, 0, 3⟩ 2 1 s ∧ s.queue 0 = [] ∧
    s.dropped = [⟨⟨5, 0, 30, 40, 1, 0⟩, 0⟩] ∧ s.out = [] :=
  ⟨_, .step _ _ (.step _ _ .init (.request _ 0 ⟨5, 0, 30, 40, 1, 0⟩)) (.clear _ 0 (by decide)), rfl, rfl, rfl⟩

end Verif.Route
