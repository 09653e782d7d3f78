import Verif.LifecycleModel
/- Properties C17 and C18: every data request is answered (exactly) once. -/
namespace Verif.Lifecycle

/-- How often request `id` occurs in any container. -/
def places (s : St) (id : Nat) : Nat :=
  s.pool.count id + s.toPush.count id + s.toPark.count id + s.waiting.count id +
  s.answered.count id + s.lost.count id + s.dropped.count id

theorem count_erase_mem {l : List Nat} {a : Nat} (h : a ∈ l) (b : Nat) :
    (l.erase a).count b + (if a = b then 1 else 0) = l.count b := by
  rw [List.count_erase]
  have := List.count_pos_iff.2 h
  by_cases e : a = b
  · subst e; simp; omega
  · simp [e]

structure Inv (s : St) : Prop where
  nodup : s.issued.Nodup
  cons : ∀ id, places s id = s.issued.count id
  late : s.waiterGone = true → ∀ id, s.waiting.count id ≤ s.lateParked.count id
  gone : s.waiterGone = true → s.run = false
  ph1 : s.phase = .running ↔ s.run = true
  ph2 : (s.phase = .waitingPool ∨ s.phase = .joined) → s.waiterGone = true
  ph3 : s.phase = .joined → s.pool = [] ∧ s.toPush = [] ∧ s.toPark = []
  ph4 : s.dropped ≠ [] → s.phase = .joined

theorem inv_reach {s : St} (h : Reach s) : Inv s := by
  induction h with
  | init => constructor <;> simp [St.init, places]
  | issue s t _ st ih =>
    cases st with
    | post id hf hp =>
      refine { ih with nodup := ?_, cons := ?_, ph3 := ?_ }
      · exact List.nodup_append.2 ⟨ih.nodup, by simp, by
          intro a ha b hb; simp at hb; subst hb; intro e; subst e; exact hf ha⟩
      · intro i; have := ih.cons i; simp only [places, List.count_append] at *; omega
      · intro e; exact absurd e hp
    | late id hf hp =>
      refine { ih with nodup := ?_, cons := ?_, ph4 := fun _ => hp }
      · exact List.nodup_append.2 ⟨ih.nodup, by simp, by
          intro a ha b hb; simp at hb; subst hb; intro e; subst e; exact hf ha⟩
      · intro i; have := ih.cons i; simp only [places, List.count_append] at *; omega
  | internal s t _ st ih =>
    cases st with
    | evalDone id h =>
      refine { ih with cons := ?_, ph3 := ?_ }
      · intro i; have := ih.cons i; have := count_erase_mem h i
        simp only [places, List.count_cons, beq_iff_eq] at *; omega
      · intro e; have := (ih.ph3 e).1; simp [this] at h
    | evalNotYet id h hr =>
      refine { ih with cons := ?_, ph3 := ?_ }
      · intro i; have := ih.cons i; have := count_erase_mem h i
        simp only [places, List.count_cons, beq_iff_eq] at *; omega
      · intro e; have := (ih.ph3 e).1; simp [this] at h
    | push id h =>
      refine { ih with cons := ?_, ph3 := ?_ }
      · intro i; have := ih.cons i; have := count_erase_mem h i
        simp only [places, List.count_cons, beq_iff_eq] at *; omega
      · intro e; have := (ih.ph3 e).2.1; simp [this] at h
    | pushFail id h =>
      refine { ih with cons := ?_, ph3 := ?_ }
      · intro i; have := ih.cons i; have := count_erase_mem h i
        simp only [places, List.count_cons, beq_iff_eq] at *; omega
      · intro e; have := (ih.ph3 e).2.1; simp [this] at h
    | park id h =>
      refine { ih with cons := ?_, late := ?_, ph3 := ?_ }
      · intro i; have := ih.cons i; have := count_erase_mem h i
        simp only [places, List.count_cons, beq_iff_eq] at *; omega
      · intro hw i
        simp only at hw
        have := ih.late hw i
        simp only [hw, if_true, List.count_cons]; omega
      · intro e; have := (ih.ph3 e).2.2; simp [this] at h
    | reissue id h hw =>
      refine { ih with cons := ?_, late := ?_, ph3 := ?_ }
      · intro i; have := ih.cons i; have := count_erase_mem h i
        simp only [places, List.count_append, List.count_singleton, beq_iff_eq] at *; omega
      · intro e; simp [hw] at e
      · intro e; have := ih.ph2 (Or.inr e); simp [hw] at this
    | giveUp id h hw =>
      refine { ih with cons := ?_, late := ?_ }
      · intro i; have := ih.cons i; have := count_erase_mem h i
        simp only [places, List.count_cons, beq_iff_eq] at *; omega
      · intro e; simp [hw] at e
    | giveUpFail id h hw =>
      refine { ih with cons := ?_, late := ?_ }
      · intro i; have := ih.cons i; have := count_erase_mem h i
        simp only [places, List.count_cons, beq_iff_eq] at *; omega
      · intro e; simp [hw] at e
    | waiterExit hr he hw =>
      exact { ih with late := by intro _ i; simp [he], gone := fun _ => hr, ph2 := fun _ => rfl }
    | stopCall hp =>
      exact { ih with gone := fun _ => rfl, ph1 := by simp, ph2 := by simp, ph3 := by simp,
                      ph4 := by intro e; have := ih.ph4 e; simp [hp] at this }
    | joinWaiter hp hw =>
      exact { ih with ph1 := by have := ih.gone hw; simp [this], ph2 := fun _ => hw, ph3 := by simp,
                      ph4 := by intro e; have := ih.ph4 e; simp [hp] at this }
    | joinPool hp h1 h2 h3 =>
      exact { ih with ph1 := by have := ih.ph1; simp [hp] at this; simp [this],
                      ph2 := fun _ => ih.ph2 (Or.inl hp), ph3 := fun _ => ⟨h1, h2, h3⟩,
                      ph4 := fun _ => rfl }

/-- **C18** In every reachable state, under every schedule, at most one fragment has been pushed per
issued request, and none for a request that was not issued. -/
theorem C18_never_answered_twice (s : St) (h : Reach s) :
    s.answered.Nodup ∧ ∀ id ∈ s.answered, id ∈ s.issued := by
  have hi := inv_reach h
  have hle : ∀ id, s.answered.count id ≤ s.issued.count id := by
    intro id; have := hi.cons id; simp only [places] at this; omega
  refine ⟨List.nodup_iff_count.2 ?_, ?_⟩
  · intro id; have := hle id; have := List.nodup_iff_count.1 hi.nodup id; omega
  · intro id hid
    have := List.count_pos_iff.2 hid
    exact List.count_pos_iff.1 (by have := hle id; omega)

/-- A concrete execution: request 5 is parked once, reissued and answered; request 6 times out. -/
theorem demo_reach : Reach ⟨[5, 6], [], [], [], [], [6, 5], [], [], [], true, false, .running⟩ := by
  have h1 := Reach.issue _ _ .init (.post St.init 5 (by simp [St.init]) (by simp [St.init]))
  have h2 := Reach.internal _ _ h1 (.evalNotYet _ 5 (by simp [St.init]) rfl)
  have h3 := Reach.internal _ _ h2 (.park _ 5 (by simp))
  have h4 := Reach.internal _ _ h3 (.reissue _ 5 (by simp) rfl)
  have h5 := Reach.issue _ _ h4 (.post _ 6 (by simp [St.init]) (by simp [St.init]))
  have h6 := Reach.internal _ _ h5 (.evalDone _ 5 (by simp [St.init]))
  have h7 := Reach.internal _ _ h6 (.push _ 5 (by simp))
  have h8 := Reach.internal _ _ h7 (.evalNotYet _ 6 (by simp [St.init]) rfl)
  have h9 := Reach.internal _ _ h8 (.park _ 6 (by simp))
  have h10 := Reach.internal _ _ h9 (.giveUp _ 6 (by simp) rfl)
  exact h10

/-- Non-vacuity for C18. -/
example : ∃ s, Reach s ∧ s.answered = [6, 5] := ⟨_, demo_reach, rfl⟩

/-- **C17 is false of the code (1)**: a task that found its request "not yet" answerable just before the
run ended parks it after the waiting-list thread has exited; `stop()` returns and the request
is never answered (it stays in the list until a later run). -/
theorem C17_parked_after_exit_counterexample :
    ∃ s, Reach s ∧ s.phase = .joined ∧ s.issued = [1] ∧ s.answered = [] ∧ s.lost = [] ∧
      s.dropped = [] ∧ s.waiting = [1] := by
  have h1 := Reach.issue _ _ .init (.post St.init 1 (by simp [St.init]) (by simp [St.init]))
  have h2 := Reach.internal _ _ h1 (.evalNotYet _ 1 (by simp [St.init]) rfl)
  have h3 := Reach.internal _ _ h2 (.stopCall _ rfl)
  have h4 := Reach.internal _ _ h3 (.waiterExit _ rfl rfl rfl)
  have h5 := Reach.internal _ _ h4 (.park _ 1 (by simp))
  have h6 := Reach.internal _ _ h5 (.joinWaiter _ rfl rfl)
  have h7 := Reach.internal _ _ h6 (.joinPool _ rfl (by simp [St.init]) rfl (by simp [St.init]))
  exact ⟨_, h7, rfl, rfl, rfl, rfl, rfl, rfl⟩

/-- **C17 is false of the code (2)**: the requester thread is stopped only after the handler, so a
request can be issued to the already joined pool; it is never evaluated. -/
theorem C17_issued_after_join_counterexample :
    ∃ s, Reach s ∧ s.phase = .joined ∧ s.issued = [1] ∧ s.answered = [] ∧ s.lost = [] ∧
      s.waiting = [] := by
  have h3 := Reach.internal _ _ .init (.stopCall _ rfl)
  have h4 := Reach.internal _ _ h3 (.waiterExit _ rfl rfl rfl)
  have h6 := Reach.internal _ _ h4 (.joinWaiter _ rfl rfl)
  have h7 := Reach.internal _ _ h6 (.joinPool _ rfl rfl rfl rfl)
  have h8 := Reach.issue _ _ h7 (.late _ 1 (by simp [St.init]) rfl)
  exact ⟨_, h8, rfl, rfl, rfl, rfl, rfl⟩

/-- **C17 (partial)** When `stop()` has returned, every issued request has exactly one of the fates:
answered once, fragment lost because the response queue refused it, issued too late, or parked
after the waiting-list thread exited. Hence if the last three did not happen, the answered
requests are exactly the issued ones, each once. Missing: the code does not prevent them. -/
theorem C17_answered_by_stop_partial (s : St) (h : Reach s) (hj : s.phase = .joined) :
    (∀ id ∈ s.issued, s.answered.count id + s.lost.count id + s.dropped.count id +
      s.waiting.count id = 1) ∧
    (∀ id ∈ s.waiting, id ∈ s.lateParked) ∧
    (s.lost = [] → s.dropped = [] → s.lateParked = [] → s.answered.Perm s.issued) := by
  have hi := inv_reach h
  obtain ⟨e1, e2, e3⟩ := hi.ph3 hj
  have hg := hi.ph2 (Or.inr hj)
  have hc : ∀ id, s.answered.count id + s.lost.count id + s.dropped.count id +
      s.waiting.count id = s.issued.count id := by
    intro id; have := hi.cons id; simp [places, e1, e2, e3] at this; omega
  refine ⟨?_, ?_, ?_⟩
  · intro id hid
    rw [hc id]
    have := List.count_pos_iff.2 hid
    have := List.nodup_iff_count.1 hi.nodup id
    omega
  · intro id hid
    have := List.count_pos_iff.2 hid
    have := hi.late hg id
    exact List.count_pos_iff.1 (by omega)
  · intro l1 l2 l3
    refine List.perm_iff_count.2 fun id => ?_
    have := hc id; have := hi.late hg id
    simp [l1, l2, l3] at *; omega

/-- Non-vacuity for the partial theorem: a full run with one request, no late events. -/
example : ∃ s, Reach s ∧ s.phase = .joined ∧ s.lost = [] ∧ s.dropped = [] ∧ s.lateParked = [] ∧
    s.answered = [1] := by
  have h1 := Reach.issue _ _ .init (.post St.init 1 (by simp [St.init]) (by simp [St.init]))
  have h2 := Reach.internal _ _ h1 (.evalNotYet _ 1 (by simp [St.init]) rfl)
  have h3 := Reach.internal _ _ h2 (.park _ 1 (by simp))
  have h4 := Reach.internal _ _ h3 (.stopCall _ rfl)
  have h5 := Reach.internal _ _ h4 (.giveUp _ 1 (by simp) rfl)
  have h6 := Reach.internal _ _ h5 (.waiterExit _ rfl (by simp [St.init]) rfl)
  have h7 := Reach.internal _ _ h6 (.joinWaiter _ rfl rfl)
  have h8 := Reach.internal _ _ h7 (.joinPool _ rfl (by simp [St.init]) rfl (by simp [St.init]))
  exact ⟨_, h8, rfl, rfl, rfl, rfl, rfl⟩

/-- Work left before `stop()` returns. -/
def work (s : St) : Nat :=
  4 * s.toPark.length + 3 * s.waiting.length + 2 * s.pool.length + s.toPush.length +
  (if s.waiterGone then 0 else 1) +
  (match s.phase with | .running => 3 | .waitingThread => 2 | .waitingPool => 1 | .joined => 0)

/-- **C17 (stop returns)** Once the run marker is off, every step of the handler's threads strictly
decreases the amount of work left, and as long as `stop()` has not returned some thread can step;
so `stop()` returns after a bounded number of steps under every schedule (requests issued
meanwhile add work each). -/
theorem C17_stop_terminates (s : St) (h : Reach s) (hr : s.run = false) :
    (∀ t, Internal s t → t.run = false ∧ work t < work s) ∧
    (s.phase ≠ .joined → ∃ t, Internal s t) := by
  have hi := inv_reach h
  constructor
  · intro t st
    cases st with
    | evalDone id h => have := List.length_erase_of_mem h; have := List.length_pos_of_mem h
                       simp [work, hr]; omega
    | evalNotYet id h hr' => simp [hr] at hr'
    | push id h => have := List.length_erase_of_mem h; have := List.length_pos_of_mem h
                   simp [work, hr]; omega
    | pushFail id h => have := List.length_erase_of_mem h; have := List.length_pos_of_mem h
                       simp [work, hr]; omega
    | park id h => have := List.length_erase_of_mem h; have := List.length_pos_of_mem h
                   simp [work, hr]; omega
    | reissue id h hw => have := List.length_erase_of_mem h; have := List.length_pos_of_mem h
                         simp [work, hr]; omega
    | giveUp id h hw => have := List.length_erase_of_mem h; have := List.length_pos_of_mem h
                        simp [work, hr]; omega
    | giveUpFail id h hw => have := List.length_erase_of_mem h; have := List.length_pos_of_mem h
                            simp [work, hr]; omega
    | waiterExit _ he hw => simp [work, hw, hr]
    | stopCall hp => have := hi.ph1.1 hp; simp [hr] at this
    | joinWaiter hp hw => simp [work, hp, hr]
    | joinPool hp h1 h2 h3 => simp [work, hp, hr]
  · intro hj
    cases hw : s.waiterGone with
    | false =>
      cases hq : s.waiting with
      | nil => exact ⟨_, .waiterExit s hr hq hw⟩
      | cons x xs => exact ⟨_, .giveUp s x (by simp [hq]) hw⟩
    | true =>
      cases hp : s.phase with
      | running => have := hi.ph1.1 hp; simp [hr] at this
      | waitingThread => exact ⟨_, .joinWaiter s hp hw⟩
      | joined => exact absurd hp hj
      | waitingPool =>
        cases h1 : s.pool with
        | cons x xs => exact ⟨_, .evalDone s x (by simp [h1])⟩
        | nil =>
          cases h2 : s.toPush with
          | cons x xs => exact ⟨_, .push s x (by simp [h2])⟩
          | nil =>
            cases h3 : s.toPark with
            | cons x xs => exact ⟨_, .park s x (by simp [h3])⟩
            | nil => exact ⟨_, .joinPool s hp h1 h2 h3⟩

/-- A run being stopped with a parked request. -/
example : ∃ s, Reach s ∧ s.run = false ∧ s.phase ≠ .joined ∧ s.waiting = [1] := by
  have h1 := Reach.issue _ _ .init (.post St.init 1 (by simp [St.init]) (by simp [St.init]))
  have h2 := Reach.internal _ _ h1 (.evalNotYet _ 1 (by simp [St.init]) rfl)
  have h3 := Reach.internal _ _ h2 (.park _ 1 (by simp))
  have h4 := Reach.internal _ _ h3 (.stopCall _ rfl)
  exact ⟨_, h4, rfl, by simp, rfl⟩

end Verif.Lifecycle
