import Verif.ProtocolModel
/- Properties C19 and C20: cleanups and requests exclude each other and never deadlock. -/
namespace Verif.Protocol

/-- The thread is counted in `m_requests_running`. -/
def inside : RPc → Bool
  | .entered | .active | .wantOut | .out => true
  | _ => false

/-- The request thread holds the mutex. -/
def holdsR : RPc → Bool
  | .test | .out => true
  | _ => false

/-- The cleanup thread holds the mutex. -/
def holdsC : CPc → Bool
  | .check | .test | .cleaning | .reset | .notify | .unlock => true
  | _ => false

/-- The cleanup thread has requested a cleanup and not yet finished it. -/
def claims : CPc → Bool
  | .test | .blocked | .rewant | .cleaning | .reset => true
  | _ => false

theorem sum_set (f : RPc → Nat) (l : List RPc) (i : Nat) (x y : RPc) (h : l[i]? = some x) :
    ((l.set i y).map f).sum + f x = (l.map f).sum + f y := by
  induction l generalizing i with
  | nil => simp at h
  | cons a l ih =>
    cases i with
    | zero => simp at h; subst h; simp; omega
    | succ i =>
      simp only [List.getElem?_cons_succ] at h
      have := ih i h
      simp only [List.set_cons_succ, List.map_cons, List.sum_cons]; omega

theorem sum_map_le (f g : RPc → Nat) (c : Nat) (l : List RPc) (h : ∀ p, f p ≤ g p + c) :
    (l.map f).sum ≤ (l.map g).sum + c * l.length := by
  induction l with
  | nil => simp
  | cons a l ih => simp [Nat.mul_add]; have := h a; omega

/-- 1 for threads inside. -/
def ins (p : RPc) : Nat := if inside p then 1 else 0

theorem ins_wake (l : List RPc) : ((l.map wakeR).map ins).sum = (l.map ins).sum := by
  induction l with
  | nil => rfl
  | cons a l ih => simp at ih ⊢; cases a <;> simp [wakeR, ins, inside, ih]

structure Inv (s : St) : Prop where
  run : s.running = (s.threads.map ins).sum
  mreq : ∀ (i : Nat) (p : RPc), s.threads[i]? = some p → (holdsR p = true ↔ s.mutex = some (.req i))
  mbound : ∀ i, s.mutex = some (.req i) → i < s.threads.length
  mcl : s.mutex = some .cleaner ↔ holdsC s.cleaner = true
  fl : s.flag = claims s.cleaner
  clean : s.cleaner = .cleaning → s.running = 0
  lostC : s.cleaner = .blocked → s.running ≠ 0 ∨ ∃ i : Nat, s.threads[i]? = some .left
  lostR : ∀ i : Nat, s.threads[i]? = some .blocked → s.flag = true ∨ s.cleaner = .notify

theorem getElem?_set' {l : List RPc} {i j : Nat} {x p : RPc} (h : (l.set i x)[j]? = some p) :
    (i = j ∧ p = x) ∨ (i ≠ j ∧ l[j]? = some p) := by
  by_cases e : i = j
  · subst e
    rw [List.getElem?_set] at h
    simp at h
    exact Or.inl ⟨rfl, h.2.symm⟩
  · rw [List.getElem?_set_ne e] at h; exact Or.inr ⟨e, h⟩

theorem getElem?_lt' {l : List RPc} {k : Nat} {a : RPc} (h : l[k]? = some a) : k < l.length :=
  (List.getElem?_eq_some_iff.1 h).1

theorem wake_get {l : List RPc} {j : Nat} {p : RPc} (h : (l.map wakeR)[j]? = some p) :
    ∃ p0, l[j]? = some p0 ∧ p = wakeR p0 := by
  rw [List.getElem?_map] at h
  cases e : l[j]? with
  | none => simp [e] at h
  | some a => simp [e] at h; exact ⟨a, rfl, h.symm⟩

theorem holdsR_wake (p : RPc) : holdsR (wakeR p) = holdsR p := by cases p <;> rfl
theorem wakeR_ne_blocked (p : RPc) : wakeR p ≠ .blocked := by cases p <;> simp [wakeR]
theorem holdsC_wake (p : CPc) : holdsC (wakeC p) = holdsC p := by cases p <;> rfl
theorem claims_wake (p : CPc) : claims (wakeC p) = claims p := by cases p <;> rfl

/-- Changing the state of a thread that does not own and does not take the mutex. -/
theorem mreq_set {s : St} (hi : Inv s) {i : Nat} {x y : RPc} (h : s.threads[i]? = some x)
    (hx : holdsR x = holdsR y) :
    ∀ (j : Nat) (p : RPc), (s.threads.set i y)[j]? = some p → (holdsR p = true ↔ s.mutex = some (.req j)) := by
  intro j p hp
  rcases getElem?_set' hp with ⟨rfl, rfl⟩ | ⟨-, hp⟩
  · rw [← hx]; exact hi.mreq _ _ h
  · exact hi.mreq j p hp

theorem mreq_release {s : St} (hi : Inv s) {i : Nat} {x y : RPc} (h : s.threads[i]? = some x)
    (hx : holdsR x = true) (hy : holdsR y = false) :
    ∀ (j : Nat) (p : RPc), (s.threads.set i y)[j]? = some p → (holdsR p = true ↔ none = some (Owner.req j)) := by
  intro j p hp
  have hm := (hi.mreq i x h).1 hx
  rcases getElem?_set' hp with ⟨rfl, rfl⟩ | ⟨hne, hp⟩
  · simp [hy]
  · have := hi.mreq j p hp
    rw [hm] at this
    simp only [Option.some.injEq, Owner.req.injEq, hne, iff_false, Bool.not_eq_true] at this
    simp [this]

theorem mreq_acquire {s : St} (hi : Inv s) {i : Nat} {y : RPc} (hm : s.mutex = none)
    (hy : holdsR y = true) :
    ∀ (j : Nat) (p : RPc), (s.threads.set i y)[j]? = some p →
      (holdsR p = true ↔ some (Owner.req i) = some (Owner.req j)) := by
  intro j p hp
  rcases getElem?_set' hp with ⟨rfl, rfl⟩ | ⟨hne, hp⟩
  · simp [hy]
  · have := hi.mreq j p hp
    rw [hm] at this
    simp at this
    simp [this, hne]

theorem not_holdsC {s : St} (hi : Inv s) (hm : s.mutex ≠ some .cleaner) : holdsC s.cleaner = false := by
  cases h : holdsC s.cleaner with
  | false => rfl
  | true => exact absurd (hi.mcl.2 h) hm

theorem left_set {s : St} {i : Nat} {x y : RPc} (h : s.threads[i]? = some x) (hx : x ≠ .left)
    (hl : ∃ j : Nat, s.threads[j]? = some .left) : ∃ j : Nat, (s.threads.set i y)[j]? = some .left := by
  obtain ⟨j, hj⟩ := hl
  refine ⟨j, ?_⟩
  rw [List.getElem?_set_ne]
  · exact hj
  · intro e; subst e; rw [h] at hj; simp at hj; exact hx hj

theorem lostR_set {s : St} (hi : Inv s) {i : Nat} {y : RPc} (hy : y ≠ .blocked) :
    ∀ j : Nat, (s.threads.set i y)[j]? = some .blocked → s.flag = true ∨ s.cleaner = .notify := by
  intro j hj
  rcases getElem?_set' hj with ⟨-, e⟩ | ⟨-, hj⟩
  · exact absurd e.symm hy
  · exact hi.lostR j hj

theorem inv_req {s t : St} (hi : Inv s) (st : ReqStep s t) : Inv t := by
  cases st with
  | lock i h hm =>
    have hs := sum_set ins _ i _ .test h
    refine ⟨?_, mreq_acquire hi hm rfl, ?_, ?_, hi.fl, hi.clean, ?_, lostR_set hi (by simp)⟩
    · have := hi.run; simp [ins, inside] at hs ⊢; omega
    · intro j hj; simp at hj; subst hj; simpa using getElem?_lt' h
    · have := not_holdsC hi (by simp [hm]); simp [this]
    · exact fun hb => (hi.lostC hb).imp id (left_set h (by simp))
  | wait i h hf =>
    have hs := sum_set ins _ i _ .blocked h
    have hm := (hi.mreq i _ h).1 rfl
    refine ⟨?_, mreq_release hi h rfl rfl, by simp, ?_, hi.fl, hi.clean, ?_, ?_⟩
    · have := hi.run; simp [ins, inside] at hs ⊢; omega
    · have := not_holdsC hi (by simp [hm]); simp [this]
    · exact fun hb => (hi.lostC hb).imp id (left_set h (by simp))
    · intro j _; exact Or.inl hf
  | enter i h hf =>
    have hs := sum_set ins _ i _ .entered h
    have hm := (hi.mreq i _ h).1 rfl
    have hc := not_holdsC hi (by simp [hm])
    refine ⟨?_, mreq_release hi h rfl rfl, by simp, by simp [hc], hi.fl, ?_, ?_, lostR_set hi (by simp)⟩
    · have := hi.run; simp [ins, inside] at hs ⊢; omega
    · intro e; simp only at e; rw [e] at hc; simp [holdsC] at hc
    · intro _; left; simp
  | notifyIn i h =>
    have h' : (s.threads.map wakeR)[i]? = some .entered := by simp [h, wakeR]
    have hs := sum_set ins _ i _ .active h'
    rw [ins_wake] at hs
    refine ⟨?_, ?_, ?_, ?_, ?_, ?_, ?_, ?_⟩
    · have := hi.run; simp only [ins, inside, if_true] at hs ⊢; omega
    · intro j p hp
      rcases getElem?_set' hp with ⟨rfl, rfl⟩ | ⟨hne, hp⟩
      · have := hi.mreq _ _ h; simpa [holdsR] using this
      · obtain ⟨p0, h0, rfl⟩ := wake_get hp
        rw [holdsR_wake]; exact hi.mreq j p0 h0
    · intro j hj; have := hi.mbound j hj; simpa using this
    · rw [holdsC_wake]; exact hi.mcl
    · rw [claims_wake]; exact hi.fl
    · intro e
      apply hi.clean
      cases hc : s.cleaner <;> simp_all [wakeC]
    · intro e; cases hc : s.cleaner <;> simp_all [wakeC]
    · intro j hj
      rcases getElem?_set' hj with ⟨-, e⟩ | ⟨-, hj⟩
      · simp at e
      · obtain ⟨p0, h0, e⟩ := wake_get hj
        exact absurd e.symm (wakeR_ne_blocked p0)
  | served i h =>
    have hs := sum_set ins _ i _ .wantOut h
    refine ⟨?_, mreq_set hi h rfl, ?_, hi.mcl, hi.fl, hi.clean, ?_, lostR_set hi (by simp)⟩
    · have := hi.run; simp [ins, inside] at hs ⊢; omega
    · intro j hj; have := hi.mbound j hj; simpa using this
    · exact fun hb => (hi.lostC hb).imp id (left_set h (by simp))
  | lockOut i h hm =>
    have hs := sum_set ins _ i _ .out h
    refine ⟨?_, mreq_acquire hi hm rfl, ?_, ?_, hi.fl, hi.clean, ?_, lostR_set hi (by simp)⟩
    · have := hi.run; simp [ins, inside] at hs ⊢; omega
    · intro j hj; simp at hj; subst hj; simpa using getElem?_lt' h
    · have := not_holdsC hi (by simp [hm]); simp [this]
    · exact fun hb => (hi.lostC hb).imp id (left_set h (by simp))
  | leave i h =>
    have hs := sum_set ins _ i _ .left h
    have hm := (hi.mreq i _ h).1 rfl
    have hc := not_holdsC hi (by simp [hm])
    refine ⟨?_, mreq_release hi h rfl rfl, by simp, by simp [hc], hi.fl, ?_, ?_, lostR_set hi (by simp)⟩
    · have := hi.run; simp [ins, inside] at hs ⊢; omega
    · intro e; have := hi.clean e; simp; omega
    · intro _; right
      refine ⟨i, ?_⟩
      have := getElem?_lt' h
      simp [this]
  | notifyOut i h =>
    have h' : (s.threads.map wakeR)[i]? = some .left := by simp [h, wakeR]
    have hs := sum_set ins _ i _ .idle h'
    rw [ins_wake] at hs
    refine ⟨?_, ?_, ?_, ?_, ?_, ?_, ?_, ?_⟩
    · have := hi.run; simp [ins, inside] at hs ⊢; omega
    · intro j p hp
      rcases getElem?_set' hp with ⟨rfl, rfl⟩ | ⟨hne, hp⟩
      · have := hi.mreq _ _ h; simpa [holdsR] using this
      · obtain ⟨p0, h0, rfl⟩ := wake_get hp
        rw [holdsR_wake]; exact hi.mreq j p0 h0
    · intro j hj; have := hi.mbound j hj; simpa using this
    · rw [holdsC_wake]; exact hi.mcl
    · rw [claims_wake]; exact hi.fl
    · intro e
      apply hi.clean
      cases hc : s.cleaner <;> simp_all [wakeC]
    · intro e; cases hc : s.cleaner <;> simp_all [wakeC]
    · intro j hj
      rcases getElem?_set' hj with ⟨-, e⟩ | ⟨-, hj⟩
      · simp at e
      · obtain ⟨p0, h0, e⟩ := wake_get hj
        exact absurd e.symm (wakeR_ne_blocked p0)

theorem no_holdsR {s : St} (hi : Inv s) (hm : ∀ i, s.mutex ≠ some (.req i)) {i : Nat} {p : RPc}
    (h : s.threads[i]? = some p) : holdsR p = false := by
  cases e : holdsR p with
  | false => rfl
  | true => exact absurd ((hi.mreq i p h).1 e) (hm i)

theorem inv_clean {s t : St} (hi : Inv s) (st : CleanStep s t) : Inv t := by
  have hold : holdsC s.cleaner = true → s.mutex = some .cleaner := hi.mcl.2
  cases st with
  | lock h hm =>
    refine ⟨hi.run, ?_, by simp, by simp [holdsC], ?_, by simp, by simp, ?_⟩
    · intro i p hp; have := no_holdsR hi (by simp [hm]) hp; simp [this]
    · have := hi.fl; rw [h] at this; simpa [claims] using this
    · intro i hp; have := hi.lostR i hp; simp [h] at this; exact Or.inl this
  | skip h =>
    have hm := hold (by rw [h]; rfl)
    refine ⟨hi.run, ?_, by simp, by simp [holdsC], ?_, by simp, by simp, ?_⟩
    · intro i p hp; have := no_holdsR hi (by simp [hm]) hp; simp [this]
    · have := hi.fl; rw [h] at this; simpa [claims] using this
    · intro i hp; have := hi.lostR i hp; simp [h] at this; exact Or.inl this
  | request h hf =>
    have hm := hold (by rw [h]; rfl)
    exact ⟨hi.run, hi.mreq, hi.mbound, by simp [hm, holdsC], rfl, by simp, by simp, fun i _ => Or.inl rfl⟩
  | wait h hr =>
    have hm := hold (by rw [h]; rfl)
    refine ⟨hi.run, ?_, by simp, by simp [holdsC], ?_, by simp, fun _ => Or.inl hr, ?_⟩
    · intro i p hp; have := no_holdsR hi (by simp [hm]) hp; simp [this]
    · have := hi.fl; rw [h] at this; simpa [claims] using this
    · intro i hp; have := hi.lostR i hp; simp [h] at this; exact Or.inl this
  | go h hr =>
    have hm := hold (by rw [h]; rfl)
    refine ⟨hi.run, hi.mreq, hi.mbound, by simp [hm, holdsC], ?_, fun _ => hr, by simp, ?_⟩
    · have := hi.fl; rw [h] at this; simpa [claims] using this
    · intro i hp; have := hi.lostR i hp; simp [h] at this; exact Or.inl this
  | relock h hm =>
    refine ⟨hi.run, ?_, by simp, by simp [holdsC], ?_, by simp, by simp, ?_⟩
    · intro i p hp; have := no_holdsR hi (by simp [hm]) hp; simp [this]
    · have := hi.fl; rw [h] at this; simpa [claims] using this
    · intro i hp; have := hi.lostR i hp; simp [h] at this; exact Or.inl this
  | cleaned h =>
    have hm := hold (by rw [h]; rfl)
    refine ⟨hi.run, hi.mreq, hi.mbound, by simp [hm, holdsC], ?_, by simp, by simp, ?_⟩
    · have := hi.fl; rw [h] at this; simpa [claims] using this
    · intro i hp; have := hi.lostR i hp; simp [h] at this; exact Or.inl this
  | clear h =>
    have hm := hold (by rw [h]; rfl)
    exact ⟨hi.run, hi.mreq, hi.mbound, by simp [hm, holdsC], rfl, by simp, by simp, fun i _ => Or.inr rfl⟩
  | notify h =>
    have hm := hold (by rw [h]; rfl)
    refine ⟨?_, ?_, ?_, by simp [hm, holdsC], ?_, by simp, by simp, ?_⟩
    · simp only; rw [ins_wake]; exact hi.run
    · intro i p hp
      obtain ⟨p0, h0, rfl⟩ := wake_get hp
      rw [holdsR_wake]; exact hi.mreq i p0 h0
    · intro j hj; have := hi.mbound j hj; simpa using this
    · have := hi.fl; rw [h] at this; simpa [claims] using this
    · intro i hp
      obtain ⟨p0, h0, e⟩ := wake_get hp
      exact absurd e.symm (wakeR_ne_blocked p0)
  | unlock h =>
    have hm := hold (by rw [h]; rfl)
    refine ⟨hi.run, ?_, by simp, by simp [holdsC], ?_, by simp, by simp, ?_⟩
    · intro i p hp; have := no_holdsR hi (by simp [hm]) hp; simp [this]
    · have := hi.fl; rw [h] at this; simpa [claims] using this
    · intro i hp; have := hi.lostR i hp; simp [h] at this; exact Or.inl this

theorem inv_env {s t : St} (hi : Inv s) (st : EnvStep s t) : Inv t := by
  cases st with
  | newRequest i h =>
    have hs := sum_set ins _ i _ .want h
    refine ⟨?_, mreq_set hi h rfl, ?_, hi.mcl, hi.fl, hi.clean, ?_, lostR_set hi (by simp)⟩
    · have := hi.run; simp [ins, inside] at hs ⊢; omega
    · intro j hj; have := hi.mbound j hj; simpa using this
    · exact fun hb => (hi.lostC hb).imp id (left_set h (by simp))
  | newCheck h =>
    refine ⟨hi.run, hi.mreq, hi.mbound, ?_, ?_, by simp, by simp, ?_⟩
    · have := hi.mcl; rw [h] at this; simpa [holdsC] using this
    · have := hi.fl; rw [h] at this; simpa [claims] using this
    · intro i hp; have := hi.lostR i hp; simp [h] at this; exact Or.inl this
  | spuriousR i h =>
    have hs := sum_set ins _ i _ .want h
    refine ⟨?_, mreq_set hi h rfl, ?_, hi.mcl, hi.fl, hi.clean, ?_, lostR_set hi (by simp)⟩
    · have := hi.run; simp [ins, inside] at hs ⊢; omega
    · intro j hj; have := hi.mbound j hj; simpa using this
    · exact fun hb => (hi.lostC hb).imp id (left_set h (by simp))
  | spuriousC h =>
    refine ⟨hi.run, hi.mreq, hi.mbound, ?_, ?_, by simp, by simp, ?_⟩
    · have := hi.mcl; rw [h] at this; simpa [holdsC] using this
    · have := hi.fl; rw [h] at this; simpa [claims] using this
    · intro i hp; have := hi.lostR i hp; simp [h] at this; exact Or.inl this

theorem inv_init (n : Nat) : Inv (St.init n) := by
  refine ⟨?_, ?_, by simp [St.init], by simp [St.init, holdsC], rfl, by simp [St.init],
    by simp [St.init], ?_⟩
  · simp [St.init, ins, inside]
  · intro i p hp
    simp [St.init, List.getElem?_replicate] at hp
    obtain ⟨-, rfl⟩ := hp; simp [holdsR, St.init]
  · intro i hp; simp [St.init, List.getElem?_replicate] at hp

theorem inv_reach {n : Nat} {s : St} (h : Reach n s) : Inv s := by
  induction h with
  | init => exact inv_init n
  | own s t _ st ih =>
    rcases st with st | st
    · exact inv_req ih st
    · exact inv_clean ih st
  | env s t _ st ih => exact inv_env ih st

theorem ins_zero {l : List RPc} (h : (l.map ins).sum = 0) {i : Nat} {p : RPc} (hp : l[i]? = some p) :
    inside p = false := by
  induction l generalizing i with
  | nil => simp at hp
  | cons a l ih =>
    simp at h
    cases i with
    | zero => simp at hp; subst hp; have := h.1; simp [ins] at this; exact this
    | succ i => simp at hp; exact ih h.2 hp

/-- **C19** In every reachable state with any number of request threads, while the cleanup thread is
popping the buffer no request thread (and no recording lookup) is reading it. -/
theorem C19_cleanup_excludes_requests (n : Nat) (s : St) (h : Reach n s) :
    ¬ (s.cleaner = .cleaning ∧ ∃ i : Nat, s.threads[i]? = some .active) := by
  rintro ⟨hc, i, ha⟩
  have hi := inv_reach h
  have := hi.clean hc
  rw [hi.run] at this
  have := ins_zero this ha
  simp [inside] at this

/-- Non-vacuity for C19: with two request threads, a state where one request is active and the
cleanup is waiting for it, and a later state where the cleanup is running. -/
example : (∃ s, Reach 2 s ∧ s.cleaner = .blocked ∧ s.threads[0]? = some .active) ∧
    (∃ s, Reach 2 s ∧ s.cleaner = .cleaning) := by
  have h1 := Reach.env _ _ (Reach.init (n := 2)) (.newRequest _ 0 rfl)
  have h2 := Reach.own _ _ h1 (Or.inl (.lock _ 0 rfl rfl))
  have h3 := Reach.own _ _ h2 (Or.inl (.enter _ 0 rfl rfl))
  have h4 := Reach.own _ _ h3 (Or.inl (.notifyIn _ 0 rfl))
  have h5 := Reach.env _ _ h4 (.newCheck _ rfl)
  have h6 := Reach.own _ _ h5 (Or.inr (.lock _ rfl rfl))
  have h7 := Reach.own _ _ h6 (Or.inr (.request _ rfl rfl))
  have h8 := Reach.own _ _ h7 (Or.inr (.wait _ rfl (by simp [St.init])))
  have h9 := Reach.own _ _ h8 (Or.inl (.served _ 0 rfl))
  have h10 := Reach.own _ _ h9 (Or.inl (.lockOut _ 0 rfl rfl))
  have h11 := Reach.own _ _ h10 (Or.inl (.leave _ 0 rfl))
  have h12 := Reach.own _ _ h11 (Or.inl (.notifyOut _ 0 rfl))
  have h13 := Reach.own _ _ h12 (Or.inr (.relock _ rfl rfl))
  have h14 := Reach.own _ _ h13 (Or.inr (.go _ rfl rfl))
  exact ⟨⟨_, h8, rfl, rfl⟩, ⟨_, h14, rfl⟩⟩

/-- **C20 (no deadlock)** In every reachable state in which some request thread or the cleanup thread
is not idle, some thread of the handler can take a step, without relying on spurious wake-ups or
new work. -/
theorem C20_no_deadlock (n : Nat) (s : St) (h : Reach n s)
    (hw : s.cleaner ≠ .idle ∨ ∃ (i : Nat) (p : RPc), s.threads[i]? = some p ∧ p ≠ .idle) : ∃ t, Own s t := by
  have hi := inv_reach h
  by_cases hreq : ∃ i, s.mutex = some (.req i)
  · obtain ⟨i, hm⟩ := hreq
    have hb := hi.mbound i hm
    have he := List.getElem?_eq_getElem hb
    have := (hi.mreq i _ he).2 hm
    generalize s.threads[i] = p at *
    cases p with
    | test =>
      cases hf : s.flag with
      | true => exact ⟨_, Or.inl (.wait s i he hf)⟩
      | false => exact ⟨_, Or.inl (.enter s i he hf)⟩
    | out => exact ⟨_, Or.inl (.leave s i he)⟩
    | _ => simp [holdsR] at this
  · by_cases hcl : s.mutex = some .cleaner
    · have := hi.mcl.1 hcl
      cases hc : s.cleaner with
      | check => exact ⟨_, Or.inr (.skip s hc)⟩
      | test =>
        by_cases hr : s.running = 0
        · exact ⟨_, Or.inr (.go s hc hr)⟩
        · exact ⟨_, Or.inr (.wait s hc hr)⟩
      | cleaning => exact ⟨_, Or.inr (.cleaned s hc)⟩
      | reset => exact ⟨_, Or.inr (.clear s hc)⟩
      | notify => exact ⟨_, Or.inr (.notify s hc)⟩
      | unlock => exact ⟨_, Or.inr (.unlock s hc)⟩
      | _ => rw [hc] at this; simp [holdsC] at this
    · have hm : s.mutex = none := by
        cases e : s.mutex with
        | none => rfl
        | some o =>
          cases o with
          | req i => exact absurd ⟨i, e⟩ hreq
          | cleaner => exact absurd e hcl
      have hnc := not_holdsC hi hcl
      by_cases hmove : ∃ (i : Nat) (p : RPc), s.threads[i]? = some p ∧ p ≠ .idle ∧ p ≠ .blocked
      · obtain ⟨i, p, hp, h1, h2⟩ := hmove
        have hnr := no_holdsR hi (by simp [hm]) hp
        cases p with
        | idle => exact absurd rfl h1
        | blocked => exact absurd rfl h2
        | want => exact ⟨_, Or.inl (.lock s i hp hm)⟩
        | entered => exact ⟨_, Or.inl (.notifyIn s i hp)⟩
        | active => exact ⟨_, Or.inl (.served s i hp)⟩
        | wantOut => exact ⟨_, Or.inl (.lockOut s i hp hm)⟩
        | left => exact ⟨_, Or.inl (.notifyOut s i hp)⟩
        | test => simp [holdsR] at hnr
        | out => simp [holdsR] at hnr
      · have hidle : ∀ (i : Nat) (p : RPc), s.threads[i]? = some p → p = .idle ∨ p = .blocked := by
          intro i p hp
          by_cases e1 : p = .idle
          · exact Or.inl e1
          · by_cases e2 : p = .blocked
            · exact Or.inr e2
            · exact absurd ⟨i, p, hp, e1, e2⟩ hmove
        have hrun : s.running = 0 := by
          rw [hi.run]
          have : ∀ x ∈ s.threads.map ins, x = 0 := by
            intro x hx
            obtain ⟨p, hp, rfl⟩ := List.mem_map.1 hx
            obtain ⟨i, hlt, e⟩ := List.mem_iff_getElem.1 hp
            rcases hidle i p (by rw [List.getElem?_eq_getElem hlt, e]) with rfl | rfl <;> rfl
          exact List.sum_eq_zero_iff_forall_eq_nat.2 this
        cases hc : s.cleaner with
        | want => exact ⟨_, Or.inr (.lock s hc hm)⟩
        | rewant => exact ⟨_, Or.inr (.relock s hc hm)⟩
        | blocked =>
          rcases hi.lostC hc with hr | ⟨i, hl⟩
          · exact absurd hrun hr
          · rcases hidle i _ hl with e | e <;> simp at e
        | idle =>
          rcases hw with hw | ⟨i, p, hp, hne⟩
          · exact absurd hc hw
          · rcases hidle i p hp with e | e
            · exact absurd e hne
            · subst e
              have := hi.lostR i hp
              rw [hi.fl, hc] at this
              simp [claims] at this
        | _ => rw [hc] at hnc; simp [holdsC] at hnc

/-- One request thread has been given a request, the other is idle. -/
example : ∃ s, Reach 2 s ∧ s.threads[0]? ≠ some .idle :=
  ⟨_, Reach.env _ _ (Reach.init (n := 2)) (.newRequest _ 0 rfl), by simp [St.init]⟩

/-- Progress left in a request that has entered. -/
def wIn : RPc → Nat
  | .entered => 5 | .active => 4 | .wantOut => 3 | .out => 2 | .left => 1 | _ => 0

/-- Steps an outside thread can take before it blocks. -/
def wOut : RPc → Nat
  | .idle => 3 | .want => 2 | .test => 1 | _ => 0

/-- Steps the waiting cleanup thread can take before it blocks. -/
def wCl : CPc → Nat
  | .rewant => 2 | .test => 1 | _ => 0

/-- Bound on the number of steps before a pending cleanup runs. -/
def bound (s : St) : Nat :=
  (s.threads.map wIn).sum * (3 * s.threads.length + 3) + (s.threads.map wOut).sum + wCl s.cleaner

/-- The cleanup thread has requested a cleanup and waits for the running requests. -/
def Pending (s : St) : Prop := s.cleaner = .test ∨ s.cleaner = .blocked ∨ s.cleaner = .rewant

/-- Steps considered by the liveness statement: everything except spurious wake-ups. -/
inductive Live : St → St → Prop where
  | own (s t : St) (h : Own s t) : Live s t
  | newRequest (s : St) (i : Nat) (h : s.threads[i]? = some .idle) :
      Live s { s with threads := s.threads.set i .want }

theorem wIn_wake (l : List RPc) : ((l.map wakeR).map wIn).sum = (l.map wIn).sum := by
  induction l with
  | nil => rfl
  | cons a l ih => simp at ih ⊢; cases a <;> simp [wakeR, wIn, ih]

theorem wOut_le (l : List RPc) : (l.map wOut).sum ≤ 3 * l.length := by
  induction l with
  | nil => simp
  | cons a l ih => simp; cases a <;> simp [wOut] <;> omega

theorem wCl_le (c : CPc) : wCl c ≤ 2 := by cases c <;> simp [wCl]

/-- If the inside weight drops by one, the bound drops whatever happens to the rest. -/
theorem bound_drop {a b n x y : Nat} (h : a + 1 = b) (hx : x ≤ 3 * n + 2) :
    a * (3 * n + 3) + x < b * (3 * n + 3) + y := by
  subst h
  rw [Nat.add_mul, Nat.one_mul]; omega

theorem pending_claims {s : St} (h : Pending s) : claims s.cleaner = true := by
  rcases h with h | h | h <;> rw [h] <;> rfl

theorem pending_wake {s : St} (h : Pending s) (thr : List RPc) :
    Pending { s with threads := thr, cleaner := wakeC s.cleaner } := by
  rcases h with h | h | h <;> simp [Pending, h, wakeC]

theorem bound_step {s t : St} (hi : Inv s) (hp : Pending s) (st : Live s t) :
    t.cleaner = .cleaning ∨ (Pending t ∧ bound t < bound s) := by
  have hflag : s.flag = true := by rw [hi.fl]; exact pending_claims hp
  have hcl2 := wCl_le s.cleaner
  cases st with
  | newRequest i h =>
    have h1 := sum_set wIn _ i _ .want h
    have h2 := sum_set wOut _ i _ .want h
    right; refine ⟨hp, ?_⟩
    simp only [wIn, wOut] at h1 h2
    simp only [bound, List.length_set]
    rw [show ((s.threads.set i .want).map wIn).sum = (s.threads.map wIn).sum by omega]
    omega
  | own t h =>
    rcases h with h | h
    · right
      cases h with
      | lock i h hm =>
        have h1 := sum_set wIn _ i _ .test h
        have h2 := sum_set wOut _ i _ .test h
        refine ⟨hp, ?_⟩
        simp only [wIn, wOut] at h1 h2
        simp only [bound, List.length_set]
        rw [show ((s.threads.set i .test).map wIn).sum = (s.threads.map wIn).sum by omega]
        omega
      | wait i h hf =>
        have h1 := sum_set wIn _ i _ .blocked h
        have h2 := sum_set wOut _ i _ .blocked h
        refine ⟨hp, ?_⟩
        simp only [wIn, wOut] at h1 h2
        simp only [bound, List.length_set]
        rw [show ((s.threads.set i .blocked).map wIn).sum = (s.threads.map wIn).sum by omega]
        omega
      | enter i h hf => rw [hflag] at hf; simp at hf
      | notifyIn i h =>
        have h' : (s.threads.map wakeR)[i]? = some .entered := by simp [h, wakeR]
        have h1 := sum_set wIn _ i _ .active h'
        rw [wIn_wake] at h1
        have h3 := wOut_le ((s.threads.map wakeR).set i .active)
        have h4 := wCl_le (wakeC s.cleaner)
        refine ⟨pending_wake hp _, ?_⟩
        simp only [wIn] at h1
        simp only [bound, List.length_set, List.length_map, Nat.add_assoc] at h3 ⊢
        exact bound_drop (by omega) (by omega)
      | served i h =>
        have h1 := sum_set wIn _ i _ .wantOut h
        have h3 := wOut_le (s.threads.set i .wantOut)
        refine ⟨hp, ?_⟩
        simp only [wIn] at h1
        simp only [bound, List.length_set, Nat.add_assoc] at h3 ⊢
        exact bound_drop (by omega) (by omega)
      | lockOut i h hm =>
        have h1 := sum_set wIn _ i _ .out h
        have h3 := wOut_le (s.threads.set i .out)
        refine ⟨hp, ?_⟩
        simp only [wIn] at h1
        simp only [bound, List.length_set, Nat.add_assoc] at h3 ⊢
        exact bound_drop (by omega) (by omega)
      | leave i h =>
        have h1 := sum_set wIn _ i _ .left h
        have h3 := wOut_le (s.threads.set i .left)
        refine ⟨hp, ?_⟩
        simp only [wIn] at h1
        simp only [bound, List.length_set, Nat.add_assoc] at h3 ⊢
        exact bound_drop (by omega) (by omega)
      | notifyOut i h =>
        have h' : (s.threads.map wakeR)[i]? = some .left := by simp [h, wakeR]
        have h1 := sum_set wIn _ i _ .idle h'
        rw [wIn_wake] at h1
        have h3 := wOut_le ((s.threads.map wakeR).set i .idle)
        have h4 := wCl_le (wakeC s.cleaner)
        refine ⟨pending_wake hp _, ?_⟩
        simp only [wIn] at h1
        simp only [bound, List.length_set, List.length_map, Nat.add_assoc] at h3 ⊢
        exact bound_drop (by omega) (by omega)
    · cases h with
      | wait h hr => right; exact ⟨Or.inr (Or.inl rfl), by simp [bound, h, wCl]⟩
      | relock h hm => right; exact ⟨Or.inl rfl, by simp [bound, h, wCl]⟩
      | go h hr => left; rfl
      | lock h hm => rcases hp with e | e | e <;> rw [h] at e <;> simp at e
      | skip h => rcases hp with e | e | e <;> rw [h] at e <;> simp at e
      | request h hf => rcases hp with e | e | e <;> rw [h] at e <;> simp at e
      | cleaned h => rcases hp with e | e | e <;> rw [h] at e <;> simp at e
      | clear h => rcases hp with e | e | e <;> rw [h] at e <;> simp at e
      | notify h => rcases hp with e | e | e <;> rw [h] at e <;> simp at e
      | unlock h => rcases hp with e | e | e <;> rw [h] at e <;> simp at e

theorem live_reach {n : Nat} {s t : St} (h : Reach n s) (st : Live s t) : Reach n t := by
  cases st with
  | own t h' => exact .own _ _ h h'
  | newRequest i h' => exact .env _ _ h (.newRequest s i h')

/-- **C20 (a pending cleanup runs)** From every reachable state in which a cleanup is pending, every
execution of more than `bound s` steps (any schedule, new requests arriving at any time) starts the
cleanup within `bound s + 1` steps: while it is pending no new request enters, and the ones inside
finish. Some step is always possible (`C20_no_deadlock`). -/
theorem C20_pending_cleanup_runs (n : Nat) (s : St) (h : Reach n s) (hp : Pending s)
    (run : Nat → St) (h0 : run 0 = s) (hstep : ∀ k, k ≤ bound s → Live (run k) (run (k + 1))) :
    ∃ k, k ≤ bound s + 1 ∧ (run k).cleaner = .cleaning := by
  have key : ∀ b, ∀ k, k + b ≤ bound s → Reach n (run k) → Pending (run k) → bound (run k) ≤ b →
      ∃ j, j ≤ k + b + 1 ∧ (run j).cleaner = .cleaning := by
    intro b
    induction b with
    | zero =>
      intro k hk hr hp hb
      rcases bound_step (inv_reach hr) hp (hstep k (by omega)) with e | ⟨_, hlt⟩
      · exact ⟨k + 1, by omega, e⟩
      · omega
    | succ b ih =>
      intro k hk hr hp hb
      rcases bound_step (inv_reach hr) hp (hstep k (by omega)) with e | ⟨hp', hlt⟩
      · exact ⟨k + 1, by omega, e⟩
      · obtain ⟨j, hj, e⟩ := ih (k + 1) (by omega) (live_reach hr (hstep k (by omega))) hp' (by omega)
        exact ⟨j, by omega, e⟩
  obtain ⟨k, hk, e⟩ := key (bound s) 0 (by omega) (by rw [h0]; exact h) (by rw [h0]; exact hp)
    (by rw [h0]; exact Nat.le_refl _)
  exact ⟨k, by omega, e⟩

/-- **C20 (no new request enters while a cleanup is pending)** -/
theorem C20_no_entry_while_pending (n : Nat) (s t : St) (h : Reach n s) (hp : Pending s)
    (st : Live s t) : t.running ≤ s.running := by
  have hi := inv_reach h
  have hflag : s.flag = true := by rw [hi.fl]; exact pending_claims hp
  cases st with
  | newRequest i h => exact Nat.le_refl _
  | own t h =>
    rcases h with h | h
    · cases h <;> simp_all
    · cases h <;> simp_all

/-- Non-vacuity for C20: a reachable pending state with a request still active. -/
example : ∃ s, Reach 2 s ∧ Pending s ∧ s.running = 1 := by
  have h1 := Reach.env _ _ (Reach.init (n := 2)) (.newRequest _ 0 rfl)
  have h2 := Reach.own _ _ h1 (Or.inl (.lock _ 0 rfl rfl))
  have h3 := Reach.own _ _ h2 (Or.inl (.enter _ 0 rfl rfl))
  have h5 := Reach.env _ _ h3 (.newCheck _ rfl)
  have h6 := Reach.own _ _ h5 (Or.inr (.lock _ rfl rfl))
  have h7 := Reach.own _ _ h6 (Or.inr (.request _ rfl rfl))
  exact ⟨_, h7, Or.inl rfl, rfl⟩

end Verif.Protocol
