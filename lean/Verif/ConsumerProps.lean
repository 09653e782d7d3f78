import Verif.ConsumerModel
/- Property C85: consumer modules. -/
namespace Verif.Consumer
variable {P : Type}

/-- The packet in the thread's hands that has not reached the callback. -/
def held : Thread P → List P
  | .holding p => [p]
  | _ => []

/-- A packet handed over and not yet counted. -/
def uncounted : Thread P → Nat
  | .seen _ => 1
  | _ => 0

/-- Number handed over in a run. -/
def inRun (s : St P) : Nat := (s.handed.filter (fun x => decide (x.1 = s.run))).length

structure Inv (s : St P) : Prop where
  stream : s.handed.map (·.2) ++ held s.thread ++ s.queue = s.pushed
  count : inRun s < 2147483648 → s.count + uncounted s.thread = inRun s
  runs : ∀ x ∈ s.handed, x.1 ≤ s.run
  idle : s.started = false → (s.thread = .idle ∧ s.marker = false)

theorem inv_reach (s : St P) (h : Reach s) : Inv s := by
  induction h with
  | init => exact ⟨rfl, by intro _; rfl, by intro x hx; simp [St.init] at hx, fun _ => ⟨rfl, rfl⟩⟩
  | step s s' _ st ih =>
    obtain ⟨h1, h2, h3, h4⟩ := ih
    cases st with
    | push p => exact ⟨by simp only [← h1, List.append_assoc], h2, h3, h4⟩
    | start hs =>
      obtain ⟨ht, -⟩ := h4 hs
      have hz : (s.handed.filter (fun x => decide (x.1 = s.run + 1))) = [] := by
        rw [List.filter_eq_nil_iff]
        intro x hx
        have := h3 x hx
        simp; omega
      refine ⟨?_, ?_, ?_, by simp⟩
      · rw [ht] at h1; exact h1
      · intro _; simp [inRun, hz, uncounted]
      · intro x hx; have := h3 x hx; simp only; omega
    | pop p rest ht hm hq =>
      refine ⟨?_, ?_, h3, ?_⟩
      · rw [ht, hq] at h1; simpa [held] using h1
      · rw [ht] at h2; exact h2
      · intro hs; have := (h4 hs).1; rw [ht] at this; cases this
    | popLate p rest ht hm hs hq =>
      refine ⟨?_, ?_, h3, ?_⟩
      · rw [ht, hq] at h1; simpa [held] using h1
      · rw [ht] at h2; exact h2
      · intro hs'; have := (h4 hs').1; rw [ht] at this; cases this
    | callback p ht =>
      refine ⟨?_, ?_, ?_, ?_⟩
      · rw [ht] at h1; simpa [held] using h1
      · intro hlt
        rw [ht] at h2
        simp only [inRun, List.filter_append, List.filter_cons, List.filter_nil, List.length_append] at hlt h2 ⊢
        simp only [decide_true, if_true, List.length_cons, List.length_nil, uncounted] at hlt h2 ⊢
        have := h2 (by omega)
        omega
      · intro x hx
        rcases List.mem_append.1 hx with hx | hx
        · exact h3 x hx
        · simp only [List.mem_singleton] at hx; subst hx; exact Nat.le_refl _
      · intro hs; have := (h4 hs).1; rw [ht] at this; cases this
    | count p ht =>
      refine ⟨?_, ?_, h3, ?_⟩
      · rw [ht] at h1; exact h1
      · intro hlt
        have hlt' : inRun s < 2147483648 := hlt
        rw [ht] at h2
        have := h2 hlt'
        simp only [uncounted] at this ⊢
        have e : inRun { s with thread := .loop, count := inc32 s.count } = inRun s := rfl
        rw [e]
        simp only [inc32]
        split <;> omega
      · intro hs; have := (h4 hs).1; rw [ht] at this; cases this
    | clear hs hm => exact ⟨h1, h2, h3, by intro h; simp only at h; rw [hs] at h; cases h⟩
    | leave ht hm =>
      refine ⟨?_, ?_, h3, ?_⟩
      · rw [ht] at h1; exact h1
      · rw [ht] at h2; exact h2
      · intro _; exact ⟨rfl, hm⟩
    | stopped hs hm ht => exact ⟨h1, h2, h3, fun _ => ⟨ht, hm⟩⟩

/-- **C85 (stream)** Over any number of runs the packets given to the callback, the packet in hand and those still
in the queue are, in order, everything ever sent: each packet is handed over at most once, in order, and what a
stop leaves behind stays in the queue for the next run. -/
theorem C85_stream (s : St P) (h : Reach s) :
    s.handed.map (·.2) ++ held s.thread ++ s.queue = s.pushed ∧
    (s.started = false → s.handed.map (·.2) ++ s.queue = s.pushed) := by
  have i := inv_reach s h
  refine ⟨i.stream, ?_⟩
  intro hs
  have := i.stream
  rw [(i.idle hs).1] at this
  simpa [held] using this

/-- **C85 (count, partial)** The number reported is the number of packets handed over since the last start, except
for one that is being counted; after a stop it is exact. Missing: more than 2147483647 packets in a run
(`C85_wrap_counterexample`). -/
theorem C85_count_partial (s : St P) (h : Reach s) (hlt : inRun s < 2147483648) :
    s.count ≤ inRun s ∧ (inRun s : Int) ≤ s.count + 1 ∧ (s.started = false → s.count = inRun s) := by
  have i := inv_reach s h
  have hc := i.count hlt
  have hu : uncounted s.thread ≤ 1 := by cases s.thread <;> simp [uncounted]
  refine ⟨by omega, by omega, ?_⟩
  intro hs
  rw [(i.idle hs).1] at hc
  simpa [uncounted] using hc

/-- **C85 is false of the code** beyond that: the count becomes negative. -/
theorem C85_wrap_counterexample : inc32 2147483647 < 0 := by decide

/-- Two runs; a packet sent in the first is left for the second. -/
theorem demo : ∃ s : St Nat, Reach s ∧ s.started = false ∧ s.handed = [(1, 10), (2, 20)] ∧ s.count = 1 ∧ s.queue = [] :=
  ⟨_, .step _ _ (.step _ _ (.step _ _ (.step _ _ (.step _ _ (.step _ _ (.step _ _ (.step _ _ (.step _ _ (.step _ _
    (.step _ _ (.step _ _ (.step _ _ (.step _ _ (.step _ _ (.step _ _ .init
    (.push _ 10)) (.push _ 20)) (.start _ rfl)) (.pop _ 10 [20] rfl rfl rfl)) (.clear _ rfl rfl)) (.callback _ 10 rfl))
    (.count _ 10 rfl)) (.leave _ rfl rfl)) (.stopped _ rfl rfl rfl))
    (.start _ rfl)) (.pop _ 20 [] rfl rfl rfl)) (.callback _ 20 rfl)) (.count _ 20 rfl)) (.clear _ rfl rfl))
    (.leave _ rfl rfl)) (.stopped _ rfl rfl rfl), rfl, rfl, rfl, rfl⟩

end Verif.Consumer
