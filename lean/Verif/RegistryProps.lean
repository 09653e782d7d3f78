import Verif.RegistryModel
import Mathlib.Data.List.Induction
/- Property C23: the error registry reflects the latest interval per error. -/
namespace Verif.Registry

/-- `iv` is the latest interval reported under `name` in the call history, and no later
`remove_errors_until(t)` had `t` past its end. -/
def Present (h : List Op) (name : String) (iv : Interval) : Prop :=
  ∃ pre post, h = pre ++ .add name iv :: post ∧
    (∀ iv', .add name iv' ∉ post) ∧ (∀ t, .removeUntil t ∈ post → t ≤ iv.endTs)

theorem run_append (r : Reg) (a b : List Op) : run r (a ++ b) = run (run r a) b := by
  simp [run, List.foldl_append]

theorem run_mem (h : List Op) (name : String) (iv : Interval) :
    (name, iv) ∈ run [] h ↔ Present h name iv := by
  induction h using List.reverseRecOn with
  | nil => simp [run, Present]
  | append_singleton h op ih =>
    rw [run_append]
    cases op with
    | add n v =>
      simp only [run, List.foldl_cons, List.foldl_nil, step, addError]
      rw [List.mem_cons]
      constructor
      · rintro (e | hm)
        · injection e with e1 e2; subst e1; subst e2
          exact ⟨h, [], rfl, by simp, by simp⟩
        · simp only [List.mem_filter, decide_eq_true_eq, ne_eq, decide_not, Bool.not_eq_true',
            decide_eq_false_iff_not] at hm
          obtain ⟨pre, post, e, p1, p2⟩ := ih.1 hm.1
          refine ⟨pre, post ++ [.add n v], by simp [e], ?_, ?_⟩
          · intro iv' hc
            rcases List.mem_append.1 hc with hc | hc
            · exact p1 iv' hc
            · simp at hc; exact hm.2 hc.1
          · intro t ht
            rcases List.mem_append.1 ht with ht | ht
            · exact p2 t ht
            · simp at ht
      · rintro ⟨pre, post, e, p1, p2⟩
        rcases List.eq_nil_or_concat post with rfl | ⟨post', o, rfl⟩
        · have := List.append_inj' e rfl
          have := this.2
          simp at this
          left; rw [this.1, this.2]
        · right
          have e' : h ++ [Op.add n v] = (pre ++ .add name iv :: post') ++ [o] := by
            rw [e]; simp
          obtain ⟨e1, e2⟩ := List.append_inj' e' rfl
          simp at e2; subst e2
          simp only [List.mem_filter, decide_eq_true_eq, ne_eq, decide_not, Bool.not_eq_true',
            decide_eq_false_iff_not]
          refine ⟨ih.2 ⟨pre, post', e1, fun iv' hc => p1 iv' (by simp [hc]),
            fun t ht => p2 t (by simp [ht])⟩, ?_⟩
          intro en; subst en
          exact p1 v (by simp)
    | removeUntil t0 =>
      simp only [run, List.foldl_cons, List.foldl_nil, step, removeErrorsUntil]
      simp only [List.mem_filter, decide_eq_true_eq]
      constructor
      · rintro ⟨hm, ht0⟩
        obtain ⟨pre, post, e, p1, p2⟩ := ih.1 hm
        refine ⟨pre, post ++ [.removeUntil t0], by simp [e], ?_, ?_⟩
        · intro iv' hc
          rcases List.mem_append.1 hc with hc | hc
          · exact p1 iv' hc
          · simp at hc
        · intro t ht
          rcases List.mem_append.1 ht with ht | ht
          · exact p2 t ht
          · simp at ht; omega
      · rintro ⟨pre, post, e, p1, p2⟩
        rcases List.eq_nil_or_concat post with rfl | ⟨post', o, rfl⟩
        · have := (List.append_inj' e rfl).2
          simp at this
        · have e' : h ++ [Op.removeUntil t0] = (pre ++ .add name iv :: post') ++ [o] := by
            rw [e]; simp
          obtain ⟨e1, e2⟩ := List.append_inj' e' rfl
          simp at e2; subst e2
          refine ⟨ih.2 ⟨pre, post', e1, fun iv' hc => p1 iv' (by simp [hc]),
            fun t ht => p2 t (by simp [ht])⟩, ?_⟩
          have := p2 t0 (by simp)
          omega

/-- **C23** After every sequence of `add_error` / `remove_errors_until` calls: the named query is true
iff some interval was added under that name, was not replaced since, and no later removal time
was past its end; the unnamed query is true iff that holds for some name. -/
theorem C23_registry_latest (h : List Op) :
    (∀ name, hasErrorNamed (run [] h) name = true ↔ ∃ iv, Present h name iv) ∧
    (hasError (run [] h) = true ↔ ∃ name iv, Present h name iv) := by
  constructor
  · intro name
    simp only [hasErrorNamed, List.any_eq_true, decide_eq_true_eq]
    constructor
    · rintro ⟨⟨n, iv⟩, hm, rfl⟩; exact ⟨iv, (run_mem h _ iv).1 hm⟩
    · rintro ⟨iv, hp⟩; exact ⟨(name, iv), (run_mem h name iv).2 hp, rfl⟩
  · simp only [hasError]
    constructor
    · intro he
      cases hr : run [] h with
      | nil => simp [hr] at he
      | cons e es => exact ⟨e.1, e.2, (run_mem h e.1 e.2).1 (by simp [hr])⟩
    · rintro ⟨name, iv, hp⟩
      have := (run_mem h name iv).2 hp
      cases hr : run [] h with
      | nil => simp [hr] at this
      | cons e es => rfl

example : ∃ iv, Present [.add "A" ⟨1, 5⟩, .removeUntil 5] "A" iv :=
  ((C23_registry_latest [.add "A" ⟨1, 5⟩, .removeUntil 5]).1 "A").1 (by decide)

/-- At most one interval per name is stored. -/
theorem C23_one_interval_per_name (h : List Op) (name : String) (iv iv' : Interval)
    (h1 : (name, iv) ∈ run [] h) (h2 : (name, iv') ∈ run [] h) : iv = iv' := by
  obtain ⟨pre, post, e, p1, -⟩ := (run_mem h name iv).1 h1
  obtain ⟨pre', post', e', p1', -⟩ := (run_mem h name iv').1 h2
  rw [e] at e'
  rcases List.append_eq_append_iff.1 e' with ⟨c, c1, c2⟩ | ⟨c, c1, c2⟩
  · cases c with
    | nil => simp at c2; exact c2.1
    | cons x c =>
      simp only [List.cons_append, List.cons.injEq] at c2
      exact absurd (by rw [c2.2]; simp) (p1 iv')
  · cases c with
    | nil => simp at c2; exact c2.1.symm
    | cons x c =>
      simp only [List.cons_append, List.cons.injEq] at c2
      exact absurd (by rw [c2.2]; simp) (p1' iv)

/-- Non-vacuity for C23: an interval survives a removal up to its end, is replaced, then expires. -/
example :
    hasErrorNamed (run [] [.add "MISSING_FRAMES" ⟨10, 20⟩, .removeUntil 20]) "MISSING_FRAMES" = true ∧
    hasErrorNamed (run [] [.add "MISSING_FRAMES" ⟨10, 20⟩, .removeUntil 20,
      .add "MISSING_FRAMES" ⟨30, 40⟩, .removeUntil 41]) "MISSING_FRAMES" = false := by
  decide

end Verif.Registry
