import Verif.ThreadModel
/- Properties C43 and C44: the reusable worker thread. -/
namespace Verif.Thread

/-- Worker program points outside the handling of a task. -/
def WPc.out : WPc → Bool
  | .exec => false
  | .running _ => false
  | .setE => false
  | .setA => false
  | _ => true

/-- Caller program points inside an accepted `set_work` before the assignment. -/
def CPc.binding : CPc → Bool
  | .bind _ => true
  | .assign => true
  | _ => false

/-- Caller program points that require that no task is assigned. -/
def CPc.clear : CPc → Bool
  | .xchg _ => true
  | .bind _ => true
  | .assign => true
  | .dQuit => true
  | .dLoop => true
  | .dNotify => true
  | .destroyed => true
  | _ => false

def Inv (s : St) : Prop :=
  (s.c.clear = true → s.assigned = false) ∧
  (s.w.out = false → s.assigned = true) ∧
  (match s.w with
   | .running id => s.executed = false ∧ s.started = s.finished ++ [id] ∧ s.accepted = s.started
   | .setE => s.executed = false ∧ s.started = s.finished ∧ s.accepted = s.started
   | .setA => s.executed = true ∧ s.started = s.finished ∧ s.accepted = s.started
   | _ =>
     s.started = s.finished ∧
     (if s.executed = true then s.assigned = false ∧ s.c.binding = false ∧ s.accepted = s.started
      else ∃ id, s.accepted = s.started ++ [id] ∧
        (s.assigned = true → s.c.binding = false ∧ s.task = some id) ∧
        (s.assigned = false → (s.c = .bind id ∨ (s.c = .assign ∧ s.task = some id)))))

theorem inv_step {sp : Bool} {s s' : St} (h : Inv s) (st : Step sp s s') : Inv s' := by
  obtain ⟨h1, h2, h3⟩ := h
  rcases s with ⟨executed, assigned, quit, done, task, w, c, accepted, started, finished, last⟩
  cases st with
  | wTop h => simp only at h; subst h; cases quit <;> exact ⟨h1, by simp [WPc.out], h3⟩
  | wRdE h => simp only at h; subst h; cases executed <;> exact ⟨h1, by simp [WPc.out], h3⟩
  | wRdA h =>
    simp only at h; subst h
    cases assigned
    · exact ⟨h1, by simp [WPc.out], h3⟩
    · exact ⟨h1, by simp, h3⟩
  | wExec id h ht =>
    simp only at h ht; subst h; subst ht
    have ha : assigned = true := h2 rfl
    subst ha
    cases executed
    · obtain ⟨e, id', e1, e2, e3⟩ := h3
      have := (e2 rfl).2
      simp only at e e1
      injection this with this; subst this
      exact ⟨h1, by simp, rfl, by simp [e], e1⟩
    · obtain ⟨e, e1, -⟩ := h3; cases e1
  | wReturn id h =>
    simp only at h; subst h
    exact ⟨h1, fun _ => h2 rfl, h3.1, h3.2.1, h3.2.2⟩
  | wSetE h =>
    simp only at h; subst h
    exact ⟨h1, fun _ => h2 rfl, rfl, h3.2.1, h3.2.2⟩
  | wSetA h =>
    simp only at h; subst h
    have ha : assigned = true := h2 rfl
    subst ha
    obtain ⟨e, e1, e2⟩ := h3
    simp only at e; subst e
    refine ⟨fun _ => rfl, by simp [WPc.out], e1, ?_⟩
    simp only [if_true]
    refine ⟨trivial, ?_, e2⟩
    cases c <;> first | rfl | (exact absurd (h1 rfl) (by simp))
  | wEnter h => simp only at h; subst h; exact ⟨h1, by simp [WPc.out], h3⟩
  | wWake h => simp only at h; subst h; exact ⟨h1, by simp [WPc.out], h3⟩
  | wSpurious h hs => simp only at h; subst h; exact ⟨h1, by simp [WPc.out], h3⟩
  | wFin h => simp only at h; subst h; exact ⟨h1, by simp [WPc.out], h3⟩
  | cCall id h =>
    simp only at h; subst h
    refine ⟨by simp [CPc.clear], h2, ?_⟩
    simp only [CPc.binding] at *
    cases w <;> cases executed <;> simp_all <;> (try (obtain ⟨e, h3⟩ := h3; subst e; exact h3))
  | cChk id h =>
    simp only at h; subst h
    cases assigned
    · refine ⟨by simp, h2, ?_⟩
      simp only [CPc.binding] at *
      cases w <;> cases executed <;> simp_all <;> (try (obtain ⟨e, h3⟩ := h3; subst e; exact h3))
    · refine ⟨by simp [CPc.clear], h2, ?_⟩
      simp only [CPc.binding] at *
      cases w <;> cases executed <;> simp_all <;> (try (obtain ⟨e, h3⟩ := h3; subst e; exact h3))
  | cXchg id h =>
    simp only at h; subst h
    have ha : assigned = false := h1 rfl
    subst ha
    cases executed
    · refine ⟨by simp [CPc.clear], h2, ?_⟩
      simp only [CPc.binding] at *
      cases w <;> simp_all [WPc.out] <;> (try (obtain ⟨e, h3⟩ := h3; subst e; exact h3))
    · refine ⟨by simp, h2, ?_⟩
      simp only [CPc.binding] at *
      cases w <;> simp_all [WPc.out] <;> (try (obtain ⟨e, h3⟩ := h3; subst e; exact h3))
  | cBind id h =>
    simp only at h; subst h
    have ha : assigned = false := h1 rfl
    subst ha
    refine ⟨by simp, h2, ?_⟩
    simp only [CPc.binding] at *
    cases w <;> cases executed <;> simp_all [WPc.out] <;> (try (obtain ⟨e, h3⟩ := h3; subst e; exact h3))
  | cAssign h =>
    simp only at h; subst h
    have ha : assigned = false := h1 rfl
    subst ha
    refine ⟨by simp [CPc.clear], by simp, ?_⟩
    simp only [CPc.binding] at *
    cases w <;> cases executed <;> simp_all [WPc.out] <;> (try (obtain ⟨e, h3⟩ := h3; subst e; exact h3))
  | cNotify h =>
    simp only at h; subst h
    refine ⟨by simp [CPc.clear], ?_, ?_⟩
    · cases w <;> simp_all [WPc.out, wake]
    · simp only [CPc.binding] at *
      cases w <;> cases executed <;> simp_all [WPc.out, wake] <;> (try (obtain ⟨e, h3⟩ := h3; subst e; exact h3))
  | cDestroy h =>
    simp only at h; subst h
    refine ⟨by simp [CPc.clear], h2, ?_⟩
    simp only [CPc.binding] at *
    cases w <;> cases executed <;> simp_all <;> (try (obtain ⟨e, h3⟩ := h3; subst e; exact h3))
  | cDWait h =>
    simp only at h; subst h
    cases assigned
    · refine ⟨by simp, h2, ?_⟩
      simp only [CPc.binding] at *
      cases w <;> cases executed <;> simp_all <;> (try (obtain ⟨e, h3⟩ := h3; subst e; exact h3))
    · refine ⟨by simp [CPc.clear], h2, ?_⟩
      simp only [CPc.binding] at *
      cases w <;> cases executed <;> simp_all <;> (try (obtain ⟨e, h3⟩ := h3; subst e; exact h3))
  | cDQuit h =>
    simp only at h; subst h
    refine ⟨fun _ => h1 rfl, h2, ?_⟩
    simp only [CPc.binding] at *
    cases w <;> cases executed <;> simp_all <;> (try (obtain ⟨e, h3⟩ := h3; subst e; exact h3))
  | cDLoop h =>
    simp only at h; subst h
    refine ⟨fun _ => h1 rfl, h2, ?_⟩
    simp only [CPc.binding] at *
    cases done <;> cases w <;> cases executed <;> simp_all <;> (try (obtain ⟨e, h3⟩ := h3; subst e; exact h3))
  | cDNotify h =>
    simp only at h; subst h
    refine ⟨fun _ => h1 rfl, ?_, ?_⟩
    · cases w <;> simp_all [WPc.out, wake]
    · simp only [CPc.binding] at *
      cases w <;> cases executed <;> simp_all [WPc.out, wake] <;> (try (obtain ⟨e, h3⟩ := h3; subst e; exact h3))

theorem inv_reach {sp : Bool} {s : St} (h : Reach sp s) : Inv s := by
  induction h with
  | init => simp [Inv, Thread.init, WPc.out, CPc.clear, CPc.binding]
  | step s s' _ st ih => exact inv_step ih st

theorem ready_all_done {s : St} (h : Inv s) (he : s.executed = true) : s.finished = s.accepted := by
  obtain ⟨-, -, h3⟩ := h
  cases hw : s.w <;> simp_all

/-- **C43** For every interleaving of the worker and the controlling thread, including spurious
wake-ups: tasks are started in the order in which they were accepted, each at most once; a task
starts only after the previous one has finished; the task about to be started is the one accepted
last; the stored task is never replaced while the worker uses it; and whenever readiness is
reported, or the object is destroyed, every accepted task has finished. -/
theorem C43_each_task_once (sp : Bool) (s : St) (h : Reach sp s) :
    (s.started = s.accepted ∨ ∃ id, s.accepted = s.started ++ [id]) ∧
    (s.finished = s.started ∨ ∃ id, s.w = .running id ∧ s.started = s.finished ++ [id]) ∧
    (s.w = .exec → ∃ id, s.task = some id ∧ s.accepted = s.started ++ [id]) ∧
    (∀ id, s.c = .bind id → s.w ≠ .exec ∧ ∀ id', s.w ≠ .running id') ∧
    (s.executed = true → s.finished = s.accepted) ∧
    (s.c = .destroyed → s.finished = s.accepted) := by
  have inv := inv_reach h
  refine ⟨?_, ?_, ?_, ?_, ready_all_done inv, ?_⟩
  · obtain ⟨-, -, h3⟩ := inv
    cases hw : s.w <;> cases he : s.executed <;> simp only [hw, he] at h3 <;>
      first
      | exact Or.inl h3.2.2.symm
      | exact Or.inl h3.2.2.2.symm
      | exact Or.inr ⟨h3.2.choose, h3.2.choose_spec.1⟩
  · obtain ⟨-, -, h3⟩ := inv
    cases hw : s.w <;> simp only [hw] at h3 <;>
      first
      | exact Or.inl h3.1.symm
      | exact Or.inr ⟨_, rfl, h3.2.1⟩
      | exact Or.inl h3.2.1.symm
  · intro hw
    obtain ⟨-, h2, h3⟩ := inv
    have ha : s.assigned = true := h2 (by rw [hw]; rfl)
    simp only [hw, ha] at h3
    cases he : s.executed
    · simp only [he] at h3
      obtain ⟨-, id, e1, e2, -⟩ := h3
      exact ⟨id, (e2 trivial).2, e1⟩
    · simp [he] at h3
  · intro id hc
    obtain ⟨h1, h2, -⟩ := inv
    have ha := h1 (by rw [hc]; rfl)
    constructor
    · intro hw; have := h2 (by rw [hw]; rfl); rw [ha] at this; cases this
    · intro id' hw; have := h2 (by rw [hw]; rfl); rw [ha] at this; cases this
  · intro hc
    have ha := inv.1 (by rw [hc]; rfl)
    cases he : s.executed
    · obtain ⟨-, h2, h3⟩ := inv
      cases hw : s.w <;> simp_all [WPc.out]
    · exact ready_all_done inv he

/-- The caller's steps of an undisturbed `set_work`, with the worker at `.top`. -/
theorem demo_accept : Reach false ⟨false, true, false, false, some 7, .top, .idle, [7], [], [], some true⟩ := by
  have h1 := Reach.step _ _ (Reach.init (sp := false)) (.cCall _ 7 rfl)
  have h2 := Reach.step _ _ h1 (.cChk _ 7 rfl)
  have h3 := Reach.step _ _ h2 (.cXchg _ 7 rfl)
  have h4 := Reach.step _ _ h3 (.cBind _ 7 rfl)
  have h5 := Reach.step _ _ h4 (.cAssign _ rfl)
  exact Reach.step _ _ h5 (.cNotify _ rfl)

/-- The task has run, the worker has reported readiness but not yet cleared the assignment. -/
theorem demo_ready : Reach false ⟨true, true, false, false, some 7, .setA, .idle, [7], [7], [7], some true⟩ := by
  have h1 := Reach.step _ _ demo_accept (.wTop _ rfl)
  have h2 := Reach.step _ _ h1 (.wRdE _ rfl)
  have h3 := Reach.step _ _ h2 (.wRdA _ rfl)
  have h4 := Reach.step _ _ h3 (.wExec _ 7 rfl rfl)
  have h5 := Reach.step _ _ h4 (.wReturn _ 7 rfl)
  exact Reach.step _ _ h5 (.wSetE _ rfl)

/-- Non-vacuity for C43: a task accepted, run, and reported as done. -/
example : ∃ s, Reach false s ∧ s.executed = true ∧ s.finished = [7] := ⟨_, demo_ready, rfl, rfl⟩

/-- **C43 needs a single caller**: with two concurrent callers of `set_work` an accepted task can be
lost and the thread is unusable for good: no task assigned, not ready, so that every further
`set_work` is refused. -/
theorem C43_two_callers_counterexample : ∃ s c, Reach2 (s, c) ∧ s.accepted = [1, 2] ∧
    s.started = [1] ∧ s.executed = false ∧ s.assigned = false ∧ s.c = .idle ∧ c = .idle ∧
    s.w = .top := by
  have a0 := Reach2.init
  -- both callers see that no task is assigned
  have a1 := Reach2.step _ _ a0 (.one _ _ _ (.cCall _ 1 rfl))
  have a2 := Reach2.step _ _ a1 (.two _ _ _ (.cCall _ 2 rfl))
  have a3 := Reach2.step _ _ a2 (.one _ _ _ (.cChk _ 1 rfl))
  have a4 := Reach2.step _ _ a3 (.two _ _ _ (.cChk _ 2 rfl))
  -- the first one assigns its task, which runs
  have a5 := Reach2.step _ _ a4 (.one _ _ _ (.cXchg _ 1 rfl))
  have a6 := Reach2.step _ _ a5 (.one _ _ _ (.cBind _ 1 rfl))
  have a7 := Reach2.step _ _ a6 (.one _ _ _ (.cAssign _ rfl))
  have a8 := Reach2.step _ _ a7 (.one _ _ _ (.cNotify _ rfl))
  have a9 := Reach2.step _ _ a8 (.one _ _ _ (.wTop _ rfl))
  have a10 := Reach2.step _ _ a9 (.one _ _ _ (.wRdE _ rfl))
  have a11 := Reach2.step _ _ a10 (.one _ _ _ (.wRdA _ rfl))
  have a12 := Reach2.step _ _ a11 (.one _ _ _ (.wExec _ 1 rfl rfl))
  have a13 := Reach2.step _ _ a12 (.one _ _ _ (.wReturn _ 1 rfl))
  have a14 := Reach2.step _ _ a13 (.one _ _ _ (.wSetE _ rfl))
  -- the second one assigns its task before the worker clears the assignment
  have a15 := Reach2.step _ _ a14 (.two _ _ _ (.cXchg _ 2 rfl))
  have a16 := Reach2.step _ _ a15 (.two _ _ _ (.cBind _ 2 rfl))
  have a17 := Reach2.step _ _ a16 (.two _ _ _ (.cAssign _ rfl))
  have a18 := Reach2.step _ _ a17 (.two _ _ _ (.cNotify _ rfl))
  have a19 := Reach2.step _ _ a18 (.one _ _ _ (.wSetA _ rfl))
  exact ⟨_, _, a19, rfl, rfl, rfl, rfl, rfl, rfl, rfl⟩

/-- **C44 is false of the code (refused although ready)**: readiness is reported before the assignment
is cleared; a `set_work` in between is refused. -/
theorem C44_ready_but_refused_counterexample : ∃ s s1 s2, Reach false s ∧ s.executed = true ∧
    s.c = .idle ∧ Step false s s1 ∧ Step false s1 s2 ∧ s2.c = .idle ∧ s2.last = some false :=
  ⟨_, _, _, demo_ready, rfl, rfl, .cCall _ 8 rfl, .cChk _ 8 rfl, rfl, rfl⟩

/-- An accepted task waits for a worker that is blocked without a pending notification. -/
def Stuck (s : St) : Prop :=
  s.executed = false ∧ s.assigned = true ∧ s.w = .blocked false ∧
    (s.c = .idle ∨ (∃ id, s.c = .chk id) ∨ s.c = .dWait)

/-- **C44 is false of the code (lost wake-up)**: `set_work` notifies without holding the mutex, so the
notification can fall between the worker's test and its blocking. -/
theorem C44_lost_wakeup_counterexample :
    ∃ s, Reach false s ∧ Stuck s ∧ s.last = some true ∧ s.accepted = [7] ∧ s.started = [] := by
  have b1 := Reach.step _ _ (Reach.init (sp := false)) (.wTop _ rfl)
  have b2 := Reach.step _ _ b1 (.wRdE _ rfl)
  have h1 := Reach.step _ _ b2 (.cCall _ 7 rfl)
  have h2 := Reach.step _ _ h1 (.cChk _ 7 rfl)
  have h3 := Reach.step _ _ h2 (.cXchg _ 7 rfl)
  have h4 := Reach.step _ _ h3 (.cBind _ 7 rfl)
  have h5 := Reach.step _ _ h4 (.cAssign _ rfl)
  have h6 := Reach.step _ _ h5 (.cNotify _ rfl)
  have h7 := Reach.step _ _ h6 (.wEnter _ rfl)
  exact ⟨_, h7, ⟨rfl, rfl, rfl, Or.inl rfl⟩, rfl, rfl, rfl⟩

/-- **C44: the lost wake-up is permanent** (without spurious wake-ups): no step of either thread ever
starts the task, readiness is never reported, and a destructor call never gets past its first
loop. -/
theorem C44_stuck_forever (s s' : St) (h : Stuck s) (st : Step false s s') :
    Stuck s' ∧ s'.started = s.started ∧ s'.accepted = s.accepted ∧ s'.c ≠ .destroyed := by
  obtain ⟨h1, h2, h3, h4⟩ := h
  cases st <;> simp_all [Stuck]

/-- Reached when `set_work` notifies between the worker's check and its blocking. -/
example : ∃ s, Reach false s ∧ Stuck s := by
  have b1 := Reach.step _ _ (Reach.init (sp := false)) (.wTop _ rfl)
  have b2 := Reach.step _ _ b1 (.wRdE _ rfl)
  have h1 := Reach.step _ _ b2 (.cCall _ 7 rfl)
  have h2 := Reach.step _ _ h1 (.cChk _ 7 rfl)
  have h3 := Reach.step _ _ h2 (.cXchg _ 7 rfl)
  have h4 := Reach.step _ _ h3 (.cBind _ 7 rfl)
  have h5 := Reach.step _ _ h4 (.cAssign _ rfl)
  have h6 := Reach.step _ _ h5 (.cNotify _ rfl)
  have h7 := Reach.step _ _ h6 (.wEnter _ rfl)
  exact ⟨_, h7, ⟨rfl, rfl, rfl, Or.inl rfl⟩⟩

/-- Progress of the worker towards starting an assigned task. -/
def rank : WPc → Nat
  | .blocked _ => 5
  | .top => 4
  | .rdE => 3
  | .rdA => 2
  | .exec => 1
  | _ => 0

/-- The `set_work` of task `id` is in progress while the worker is blocked, or it has returned true
and the task waits for a worker that is on its way, or the task has been started. -/
inductive Going (id : Nat) : St → Prop where
  | calling (s : St) (hw : s.w = .blocked false) (hq : s.quit = false)
      (h : (s.executed = true ∧ s.assigned = false ∧ (s.c = .chk id ∨ s.c = .xchg id)) ∨
        (s.executed = false ∧ s.assigned = false ∧
          (s.c = .bind id ∨ (s.c = .assign ∧ s.task = some id))) ∨
        (s.executed = false ∧ s.assigned = true ∧ s.c = .notify ∧ s.task = some id)) : Going id s
  | coming (s : St) (hw : s.w = .blocked true ∨ s.w = .top ∨ s.w = .rdE ∨ s.w = .rdA ∨ s.w = .exec)
      (hq : s.quit = false) (he : s.executed = false) (ha : s.assigned = true) (ht : s.task = some id)
      (hc : s.c = .idle ∨ (∃ j, s.c = .chk j) ∨ s.c = .dWait) : Going id s
  | started (s : St) (h : id ∈ s.started) : Going id s

/-- **C44 (partial)** If the worker is already blocked when `set_work(id)` is called on a ready thread
and there are no spurious wake-ups, then in every execution from there the task is accepted and
on its way until it has been started; while it is on its way the worker can always move, every
worker step brings the start closer, and no caller step delays it. Missing: calls that overlap the
worker's way into blocking, where the claim is false. -/
theorem C44_started_partial (id : Nat) (s s' : St) (h : Going id s) (st : Step false s s') :
    Going id s' := by
  cases h with
  | started h =>
    refine .started _ ?_
    cases st <;> simp_all
    all_goals (split <;> simp_all)
  | calling hw hq h =>
    cases st <;> simp_all <;>
      first
      | (refine .calling _ ?_ ?_ ?_ <;> simp_all [wake] <;> done)
      | (refine .coming _ ?_ ?_ ?_ ?_ ?_ ?_ <;> simp_all [wake] <;> done)
  | coming hw hq he ha ht hc =>
    cases st <;> simp_all <;>
      first
      | (refine .coming _ ?_ ?_ ?_ ?_ ?_ ?_ <;> simp_all [wake] <;> done)
      | (refine .started _ ?_ <;> simp_all <;> done)

/-- The worker of a fresh thread blocks, `set_work(7)` is called, and the call checks the flag. -/
example : ∃ s s', Reach false s ∧ Going 7 s ∧ Step false s s' ∧ Going 7 s' := by
  have b1 := Reach.step _ _ (Reach.init (sp := false)) (.wTop _ rfl)
  have b2 := Reach.step _ _ b1 (.wRdE _ rfl)
  have b3 := Reach.step _ _ b2 (.wEnter _ rfl)
  have h1 := Reach.step _ _ b3 (.cCall _ 7 rfl)
  refine ⟨_, _, h1, .calling _ rfl rfl (Or.inl ⟨rfl, rfl, Or.inl rfl⟩), .cChk _ 7 rfl, ?_⟩
  exact C44_started_partial 7 _ _ (.calling _ rfl rfl (Or.inl ⟨rfl, rfl, Or.inl rfl⟩)) (.cChk _ 7 rfl)

/-- **C44 (partial), progress**: once that `set_work` has returned and until the task is started, the
worker can move, every step of the worker brings it closer to starting the task, and every step
of the caller leaves the worker where it is. -/
theorem C44_progress_partial (id : Nat) (s : St) (h : Going id s) (hn : id ∉ s.started)
    (hc : s.c = .idle ∨ s.c = .dWait) :
    (∃ s', Step false s s' ∧ (rank s'.w < rank s.w ∨ id ∈ s'.started)) ∧
    ∀ s', Step false s s' → s'.w = s.w ∨ rank s'.w < rank s.w ∨ id ∈ s'.started := by
  cases h with
  | started h => exact absurd h hn
  | calling hw hq h => rcases hc with hc | hc <;> simp_all
  | coming hw hq he ha ht _ =>
    constructor
    · rcases hw with hw | hw | hw | hw | hw
      · exact ⟨_, .wWake _ hw, Or.inl (by simp [hw, rank])⟩
      · exact ⟨_, .wTop _ hw, Or.inl (by simp [hw, rank, hq])⟩
      · exact ⟨_, .wRdE _ hw, Or.inl (by simp [hw, rank, he])⟩
      · exact ⟨_, .wRdA _ hw, Or.inl (by simp [hw, rank, ha])⟩
      · exact ⟨_, .wExec _ id hw ht, Or.inr (by simp)⟩
    · intro s' st
      cases st <;> simp_all [rank]

/-- Non-vacuity: the worker of a fresh thread blocks, then `set_work(7)` is called. -/
example : ∃ s, Reach false s ∧ Going 7 s := by
  have b1 := Reach.step _ _ (Reach.init (sp := false)) (.wTop _ rfl)
  have b2 := Reach.step _ _ b1 (.wRdE _ rfl)
  have b3 := Reach.step _ _ b2 (.wEnter _ rfl)
  have h1 := Reach.step _ _ b3 (.cCall _ 7 rfl)
  exact ⟨_, h1, .calling _ rfl rfl (Or.inl ⟨rfl, rfl, Or.inl rfl⟩)⟩

/-! ### Destruction -/

/-- How many steps the worker is away from its end once it has been told to quit. -/
def left : WPc → Nat
  | .exited => 0
  | .fin => 1
  | .top => 2
  | .blocked true => 3
  | .blocked false => 4
  | .enter => 5
  | .rdA => 6
  | .rdE => 7
  | _ => 8

/-- The destructor has set the quit flag and has not returned. -/
def CPc.quitting : CPc → Bool
  | .dLoop => true
  | .dNotify => true
  | _ => false

def QInv (s : St) : Prop :=
  (s.c.quitting = true ∨ s.c = .destroyed → s.quit = true) ∧
  (s.done = true ↔ s.w = .exited) ∧ (s.c = .destroyed → s.done = true) ∧
  (s.w = .fin ∨ s.w = .exited → s.quit = true)

theorem qinv_reach {sp : Bool} {s : St} (h : Reach sp s) : QInv s := by
  induction h with
  | init => simp [QInv, Thread.init, CPc.quitting]
  | step s s' _ st ih =>
    obtain ⟨h1, h2, h3, h4⟩ := ih
    rcases s with ⟨executed, assigned, quit, done, task, w, c, accepted, started, finished, last⟩
    cases st with
    | cDNotify h => simp only at h; subst h; cases w <;> simp_all [QInv, CPc.quitting, wake]
    | cNotify h => simp only at h; subst h; cases w <;> simp_all [QInv, CPc.quitting, wake]
    | cChk id h => simp only at h; subst h; cases assigned <;> simp_all [QInv, CPc.quitting]
    | cXchg id h => simp only at h; subst h; cases executed <;> simp_all [QInv, CPc.quitting]
    | cDWait h => simp only at h; subst h; cases assigned <;> simp_all [QInv, CPc.quitting]
    | cDLoop h => simp only at h; subst h; cases done <;> simp_all [QInv, CPc.quitting]
    | wTop h => simp only at h; subst h; cases quit <;> simp_all [QInv, CPc.quitting]
    | wRdE h => simp only at h; subst h; cases executed <;> simp_all [QInv, CPc.quitting]
    | wRdA h => simp only at h; subst h; cases assigned <;> simp_all [QInv, CPc.quitting]
    | _ => simp_all [QInv, CPc.quitting]

/-- **C43 (the end)** In every interleaving, once the destructor has passed its wait for a running task: no task
is running or waiting; every step of the worker brings the end of the worker closer, no step of the destructor
moves it away; the worker can take a step unless it has ended or waits for a notification, which the destructor
is about to give; and when the worker has ended the destructor returns at its next look. A destroyed thread
object has no running worker. -/
theorem C43_destruction_ends (sp : Bool) (s : St) (h : Reach sp s) :
    (s.c = .destroyed → s.w = .exited) ∧
    (s.c.quitting = true →
      s.finished = s.accepted ∧
      (∀ s', Step sp s s' → (left s'.w < left s.w ∧ s'.c = s.c) ∨ (left s'.w ≤ left s.w ∧ s'.c ≠ s.c)) ∧
      (s.w ≠ .exited → s.w ≠ .blocked false → ∃ s', Step sp s s' ∧ left s'.w < left s.w) ∧
      (s.w = .blocked false → ∃ s1 s2, (s1 = s ∨ Step sp s s1) ∧ Step sp s1 s2 ∧ left s2.w < left s.w) ∧
      (s.w = .exited → s.c = .dLoop → ∀ s', Step sp s s' → s'.c = .destroyed)) := by
  have inv := inv_reach h
  obtain ⟨q1, q2, q3, q4⟩ := qinv_reach h
  refine ⟨fun hd => q2.1 (q3 hd), fun hq => ?_⟩
  have hquit := q1 (Or.inl hq)
  have ha : s.assigned = false := inv.1 (by revert hq; cases s.c <;> simp [CPc.quitting, CPc.clear])
  have hout : s.w.out = true := by
    cases ho : s.w.out
    · have := inv.2.1 ho; rw [ha] at this; cases this
    · rfl
  have hcase : s.c = .dLoop ∨ s.c = .dNotify := by
    revert hq; cases s.c <;> simp [CPc.quitting]
  refine ⟨?_, ?_, ?_, ?_, ?_⟩
  · cases he : s.executed
    · obtain ⟨-, -, h3⟩ := inv
      rcases hcase with hc | hc <;> cases hw : s.w <;> simp_all [WPc.out]
    · exact ready_all_done inv he
  · intro s' st
    rcases s with ⟨executed, assigned, quit, done, task, w, c, accepted, started, finished, last⟩
    simp only at hquit ha hout hcase q2 q4
    subst hquit; subst ha
    cases st with
    | cDNotify h =>
      right
      simp only at h
      subst h
      cases w with
      | blocked b => cases b <;> simp [wake, left]
      | _ => simp [wake, left]
    | cDLoop h =>
      right
      simp only at h
      subst h
      cases done <;> simp
    | cDWait h => rcases hcase with hc | hc <;> simp_all
    | cDestroy h => rcases hcase with hc | hc <;> simp_all
    | cDQuit h => rcases hcase with hc | hc <;> simp_all
    | cCall id h => rcases hcase with hc | hc <;> simp_all
    | cChk id h => rcases hcase with hc | hc <;> simp_all
    | cXchg id h => rcases hcase with hc | hc <;> simp_all
    | cBind id h => rcases hcase with hc | hc <;> simp_all
    | cAssign h => rcases hcase with hc | hc <;> simp_all
    | cNotify h => rcases hcase with hc | hc <;> simp_all
    | wRdE h => left; simp only at h; subst h; cases executed <;> simp [left]
    | _ => left; simp_all [left, WPc.out]
  · intro h1 h2
    cases hw : s.w with
    | top => exact ⟨_, .wTop _ hw, by simp [left, hquit]⟩
    | rdE => exact ⟨_, .wRdE _ hw, by cases s.executed <;> simp [left]⟩
    | rdA => exact ⟨_, .wRdA _ hw, by simp [left, ha]⟩
    | enter => exact ⟨_, .wEnter _ hw, by simp [left]⟩
    | blocked b =>
      cases b
      · exact absurd hw h2
      · exact ⟨_, .wWake _ hw, by simp [left]⟩
    | fin => exact ⟨_, .wFin _ hw, by simp [left]⟩
    | exited => exact absurd hw h1
    | _ => simp_all [WPc.out]
  · intro hw
    have hd : s.done = false := by
      cases hd : s.done
      · rfl
      · rw [q2.1 hd] at hw; cases hw
    rcases hcase with hc | hc
    · exact ⟨_, _, .inr (.cDLoop _ hc), .cDNotify _ (by simp [hd]), by simp [hw, wake, left]⟩
    · exact ⟨s, _, .inl rfl, .cDNotify _ hc, by simp [hw, wake, left]⟩
  · intro hw hc s' st
    have hd := q2.2 hw
    rcases s with ⟨executed, assigned, quit, done, task, w, c, accepted, started, finished, last⟩
    simp only at hw hc hd
    subst hw; subst hc; subst hd
    cases st <;> simp_all

/-- A thread whose worker is blocked is destroyed: the destructor's notification ends it. -/
example : ∃ s, Reach false s ∧ s.c = .destroyed ∧ s.w = .exited := by
  have b1 := Reach.step _ _ (Reach.init (sp := false)) (.wTop _ rfl)
  have b2 := Reach.step _ _ b1 (.wRdE _ rfl)
  have b3 := Reach.step _ _ b2 (.wEnter _ rfl)
  have d1 := Reach.step _ _ b3 (.cDestroy _ rfl)
  have d2 := Reach.step _ _ d1 (.cDWait _ rfl)
  have d3 := Reach.step _ _ d2 (.cDQuit _ rfl)
  have d4 := Reach.step _ _ d3 (.cDLoop _ rfl)
  have d5 := Reach.step _ _ d4 (.cDNotify _ rfl)
  have e1 := Reach.step _ _ d5 (.wWake _ rfl)
  have e2 := Reach.step _ _ e1 (.wTop _ rfl)
  have e3 := Reach.step _ _ e2 (.wFin _ rfl)
  exact ⟨_, Reach.step _ _ e3 (.cDLoop _ rfl), rfl, rfl⟩

end Verif.Thread
