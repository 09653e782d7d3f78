import Verif.ConcCleanModel
import Verif.CleanupProps
import Verif.RetainProps
/- Property C127: the cleanup of a ring buffer while data arrive. -/
namespace Verif.ConcClean
open Verif.Ring

variable {P : Type}

/-! ### Specification vocabulary -/

/-- The payloads of a run that the buffer took, in order. -/
def taken (h : List (Arrival P)) : List P := (h.filter (·.stored)).map (·.p)

/-- What the buffer holds, oldest first. -/
def Holds (s : St P) (l : List P) : Prop := Repr s.q l

/-- Every pass that does something leaves `K` of the payloads it has counted. -/
def Keeps (c : Cfg) (K : Nat) : Prop := ∀ occ, c.limit < occ → K + c.pop occ ≤ occ

/-- Twice `R` payloads fit above the limit, and every pass that does something removes at least `R`. -/
def Roomy (c : Cfg) (n R : Nat) : Prop := c.limit + 2 * R ≤ n - 1 ∧ ∀ occ, c.limit < occ → R ≤ c.pop occ

/-- No recording, and no payload with the reserved time. -/
def Plain (ts : P → Nat) : Act P → Prop
  | .record _ => False
  | .recv p => ts p < noRecording
  | _ => True

theorem taken_append (h : List (Arrival P)) (p : P) (b : Bool) :
    taken (h ++ [⟨p, b⟩]) = taken h ++ (if b = true then [p] else []) := by
  cases b <;> simp [taken, List.filter_append]

/-! ### Invariant -/

/-- What the phases of a pass need. -/
def Phase (c : Cfg) (K : Nat) (tk l : List P) : Clean → Prop
  | .off => K ≤ l.length ∨ l = tk
  | .counting => c.limit < l.length
  | .loop n => K + n ≤ l.length
  | .pop n => K + n + 1 ≤ l.length
  | .ending => K ≤ l.length

structure Inv (c : Cfg) (n K : Nat) (s : St P) (l : List P) : Prop where
  repr : Repr s.q l
  size : s.q.size = n
  idle : s.running = false → l = [] ∧ s.clean = .off
  suf : l <:+ taken s.hist
  ph : s.running = true → Phase c K (taken s.hist) l s.clean

theorem inv_init (c : Cfg) {n : Nat} (hn : 2 ≤ n) (K : Nat) : Inv c n K (St.init P n) [] :=
  ⟨repr_init n hn, rfl, fun _ => ⟨rfl, rfl⟩, List.nil_suffix, by simp [St.init]⟩

theorem phase_append {c : Cfg} {K : Nat} {tk l x : List P} {k : Clean} (h : Phase c K tk l k) :
    Phase c K (tk ++ x) (l ++ x) k := by
  cases k <;> simp only [Phase, List.length_append] at h ⊢ <;> try omega
  rcases h with h | h
  · left; omega
  · right; rw [h]

/-- What one step does. -/
theorem step_cases (ts : P → Nat) {c : Cfg} {n K : Nat} (hk : Keeps c K) (hk1 : 1 ≤ K) {s : St P} {l : List P}
    (inv : Inv c n K s l) (a : Act P) : ∃ s' l', step ts c s a = .ok s' ∧ Inv c n K s' l' := by
  obtain ⟨hrep, hsz, hid, hsuf, hph⟩ := inv
  cases a with
  | start =>
    by_cases hr : s.running = true
    · exact ⟨s, l, by simp [step, hr], hrep, hsz, hid, hsuf, hph⟩
    · obtain ⟨h1, h2⟩ := hid (by simpa using hr)
      subst h1
      refine ⟨{ s with running := true, hist := [], since := 0 }, [], by simp only [step]; rw [if_neg hr], hrep, hsz, by simp, List.nil_suffix, ?_⟩
      intro _
      simp [h2, Phase, taken]
  | stop =>
    by_cases hr : s.running = true ∧ s.clean = .off
    · obtain ⟨q', e, r, z, -⟩ := flush_ok hrep
      refine ⟨{ s with running := false, q := q' }, [], ?_, r, z.trans hsz, ?_, List.nil_suffix, by simp⟩
      · simp only [step]; rw [if_pos hr]; simp [stop, e]
      · intro _; exact ⟨rfl, hr.2⟩
    · exact ⟨s, l, by simp only [step]; rw [if_neg hr], hrep, hsz, hid, hsuf, hph⟩
  | recv p =>
    by_cases hr : s.running = true
    · by_cases hf : l.length < s.q.size - 1
      · obtain ⟨q', e, r, z, -⟩ := write_ok hrep p hf
        refine ⟨{ s with
            q := q', hist := s.hist ++ [⟨p, true⟩], since := s.since + 1, worst := max s.worst (s.since + 1) }, l ++ [p],
          by simp only [step]; rw [if_pos hr]; simp only [receive, e, Outcome.bind_ok], r, z.trans hsz, by simp [hr], ?_, ?_⟩
        · simp only [taken_append, if_true]
          obtain ⟨u, hu⟩ := hsuf
          exact ⟨u, by rw [← hu, List.append_assoc]⟩
        · intro _
          simp only [taken_append, if_true]
          exact phase_append (hph hr)
      · have e := write_full hrep p hf
        refine ⟨{ s with
            q := { s.q with overflow := s.q.overflow + 1 }, hist := s.hist ++ [⟨p, false⟩], since := s.since + 1
            worst := max s.worst (s.since + 1) }, l,
          by simp only [step]; rw [if_pos hr]; simp only [receive, e, Outcome.bind_ok],
          ⟨hrep.two, hrep.rdlt, hrep.len, hrep.wreq, hrep.live, hrep.dead⟩, hsz, by simp [hr], ?_, ?_⟩
        · simpa [taken_append] using hsuf
        · intro _
          simpa [taken_append] using hph hr
    · exact ⟨s, l, by simp only [step]; rw [if_neg hr], hrep, hsz, hid, hsuf, hph⟩
  | record t => exact ⟨_, l, rfl, hrep, hsz, hid, hsuf, hph⟩
  | clean =>
    by_cases hr : s.running = true
    · have hp := hph hr
      simp only [step]
      rw [if_pos hr]
      cases hc : s.clean with
      | off =>
        rw [hc] at hp
        by_cases ho : s.q.occupancy > c.limit
        · refine ⟨{ s with clean := .counting }, l, ?_, hrep, hsz, by simp [hr], hsuf, ?_⟩
          · simp only [cleanStep, hc]; rw [if_pos ho]
          · intro _; rw [hrep.occ] at ho; exact ho
        · refine ⟨{ s with since := 0 }, l, ?_, hrep, hsz, by simp [hr], hsuf, ?_⟩
          · simp only [cleanStep, hc]; rw [if_neg ho]
          · intro _; simp only [hc]; exact hp
      | counting =>
        rw [hc] at hp
        refine ⟨{ s with clean := .loop (c.pop s.q.occupancy), since := 0 }, l, by simp only [cleanStep, hc], hrep, hsz,
          by simp [hr], hsuf, ?_⟩
        intro _
        simp only [Phase, hrep.occ] at hp ⊢
        exact hk _ hp
      | loop m =>
        rw [hc] at hp
        cases m with
        | zero => exact ⟨{ s with clean := .ending }, l, by simp only [cleanStep, hc], hrep, hsz, by simp [hr], hsuf,
            fun _ => by simpa [Phase] using hp⟩
        | succ m =>
          cases l with
          | nil => simp [Phase] at hp
          | cons a l =>
            have hf := Cleanup.frontTs_cons (ts := ts) hrep
            by_cases hlt : ts a < s.next
            · refine ⟨{ s with clean := .pop m }, a :: l, ?_, hrep, hsz, by simp [hr], hsuf, ?_⟩
              · simp only [cleanStep, hc, hf, Outcome.bind_ok]; rw [if_pos hlt]
              · intro _; simp only [Phase] at hp ⊢; omega
            · refine ⟨{ s with clean := .ending }, a :: l, ?_, hrep, hsz, by simp [hr], hsuf, ?_⟩
              · simp only [cleanStep, hc, hf, Outcome.bind_ok]; rw [if_neg hlt]
              · intro _; simp only [Phase] at hp ⊢; omega
      | pop m =>
        rw [hc] at hp
        simp only [Phase] at hp
        obtain ⟨q', e, r, z, -⟩ := pop_ok hrep 1 (by omega)
        refine ⟨{ s with q := q', clean := .loop m }, l.drop 1, by simp only [cleanStep, hc, e, Outcome.bind_ok], r,
          z.trans hsz, by simp [hr], (List.drop_suffix 1 l).trans hsuf, ?_⟩
        intro _
        simp only [Phase, List.length_drop]; omega
      | ending =>
        rw [hc] at hp
        simp only [Phase] at hp
        cases l with
        | nil => simp at hp; omega
        | cons a l =>
          have hf := Cleanup.frontTs_cons (ts := ts) hrep
          exact ⟨{ s with clean := .off }, a :: l, by simp only [cleanStep, hc, hf, Outcome.bind_ok], hrep, hsz, by simp [hr],
            hsuf, fun _ => Or.inl hp⟩
    · exact ⟨s, l, by simp only [step]; rw [if_neg hr], hrep, hsz, hid, hsuf, hph⟩

theorem inv_run (ts : P → Nat) {c : Cfg} {n K : Nat} (hk : Keeps c K) (hk1 : 1 ≤ K) (acts : List (Act P)) :
    ∀ {s : St P} {l : List P}, Inv c n K s l → ∃ s' l', run ts c s acts = .ok s' ∧ Inv c n K s' l' := by
  induction acts with
  | nil => intro s l h; exact ⟨s, l, rfl, h⟩
  | cons a as ih =>
    intro s l h
    obtain ⟨s1, l1, e1, h1⟩ := step_cases ts hk hk1 h a
    obtain ⟨s2, l2, e2, h2⟩ := ih h1
    exact ⟨s2, l2, by simp [run, e1, e2], h2⟩

/-! ### Theorems -/

/-- If a cleanup never takes all that it has counted, no interleaving of arrivals, cleanups, recordings and commands crashes:
the cleanup never looks at the front of an empty buffer, and never removes from one. -/
theorem C127_no_crash_partial (ts : P → Nat) (c : Cfg) (n : Nat) (hn : 2 ≤ n) (hc : ∀ occ, c.limit < occ → c.pop occ < occ)
    (acts : List (Act P)) : ∃ s, run ts c (St.init P n) acts = .ok s := by
  have hk : Keeps c 1 := fun occ h => by have := hc occ h; omega
  obtain ⟨s, -, e, -⟩ := inv_run ts hk (Nat.le_refl 1) acts (inv_init c hn 1)
  exact ⟨s, e⟩

/-- At any moment of any interleaving - also in the middle of a pass - the buffer holds the most recent of the payloads it took
in this run, in order; at least the last `K` of them, or all. -/
theorem C127_recent_stay (ts : P → Nat) (c : Cfg) (n K : Nat) (hn : 2 ≤ n) (hk : Keeps c K) (hk1 : 1 ≤ K)
    (acts : List (Act P)) (s : St P) (h : run ts c (St.init P n) acts = .ok s) (hr : s.running = true) :
    ∃ l, Holds s l ∧ l <:+ taken s.hist ∧ (K ≤ l.length ∨ l = taken s.hist) := by
  obtain ⟨s', l, e, inv⟩ := inv_run ts hk hk1 acts (inv_init c hn K)
  rw [h] at e; injection e with e; subst e
  refine ⟨l, inv.repr, inv.suf, ?_⟩
  have hp := inv.ph hr
  cases hc : s.clean <;> rw [hc] at hp <;> simp only [Phase] at hp
  · exact hp
  · left; have := hk _ hp; omega
  all_goals left; omega

/-! ### Room -/

/-- Bounds on the occupancy while nothing is recorded. -/
def Room (c : Cfg) (R : Nat) (len since : Nat) : Clean → Prop
  | .off => len ≤ c.limit + since
  | .counting => len ≤ c.limit + since
  | .loop n => len ≤ c.limit + n + since ∧ len ≤ c.limit + R + since
  | .pop n => len ≤ c.limit + (n + 1) + since ∧ len ≤ c.limit + R + since
  | .ending => len ≤ c.limit + since

theorem room_le {c : Cfg} {R len since : Nat} {k : Clean} (h : Room c R len since k) : len ≤ c.limit + R + since := by
  cases k <;> simp only [Room] at h <;> omega

structure RInv (ts : P → Nat) (c : Cfg) (n R : Nat) (s : St P) (l : List P) : Prop where
  inv : Inv c n 1 s l
  next : s.next = noRecording
  sw : s.since ≤ s.worst
  low : ∀ p ∈ l, ts p < noRecording
  room : s.worst ≤ R → (∀ a ∈ s.hist, a.stored = true) ∧ (s.running = true → Room c R l.length s.since s.clean)

theorem rinv_step (ts : P → Nat) {c : Cfg} {n R : Nat} (hk : Keeps c 1) (hro : Roomy c n R) {s s' : St P} {l : List P}
    (h : RInv ts c n R s l) {a : Act P} (ha : Plain ts a) (e : step ts c s a = .ok s') : ∃ l', RInv ts c n R s' l' := by
  obtain ⟨s1, l1, e1, inv'⟩ := step_cases ts hk (Nat.le_refl 1) h.inv a
  rw [e] at e1; injection e1 with e1; subst e1
  obtain ⟨inv, hnext, hsw, hlow, hroom⟩ := h
  cases a with
  | start =>
    by_cases hr : s.running = true
    · simp only [step, hr, if_true] at e
      injection e with e; subst e
      exact ⟨l, inv, hnext, hsw, hlow, hroom⟩
    · simp only [step, hr, if_false] at e
      injection e with e; subst e
      have hl := (inv.idle (by simpa using hr)).1
      subst hl
      have hl1 := repr_unique inv.repr inv'.repr
      subst hl1
      refine ⟨[], inv', hnext, Nat.zero_le _, by simp, fun _ => ⟨by simp, fun _ => ?_⟩⟩
      simp [(inv.idle (by simpa using hr)).2, Room]
  | stop =>
    by_cases hr : s.running = true ∧ s.clean = .off
    · obtain ⟨q', eq, r, z, -⟩ := flush_ok inv.repr
      simp only [step] at e
      rw [if_pos hr] at e
      simp only [stop, eq, Outcome.bind_ok] at e
      injection e with e; subst e
      have hl1 := repr_unique r inv'.repr
      subst hl1
      exact ⟨[], inv', hnext, hsw, by simp, fun hw => ⟨(hroom hw).1, by simp⟩⟩
    · simp only [step] at e
      rw [if_neg hr] at e
      injection e with e; subst e
      exact ⟨l, inv, hnext, hsw, hlow, hroom⟩
  | recv p =>
    by_cases hr : s.running = true
    · simp only [step, hr, if_true] at e
      by_cases hf : l.length < s.q.size - 1
      · obtain ⟨q', eq, r, z, -⟩ := write_ok inv.repr p hf
        simp only [receive, eq, Outcome.bind_ok] at e
        injection e with e; subst e
        have hl1 := repr_unique r inv'.repr
        subst hl1
        refine ⟨l ++ [p], inv', hnext, Nat.le_max_right _ _, ?_, ?_⟩
        · intro x hx
          rcases List.mem_append.1 hx with hx | hx
          · exact hlow x hx
          · simp at hx; subst hx; exact ha
        · intro hw
          obtain ⟨g1, g2⟩ := hroom (Nat.le_trans (Nat.le_max_left _ _) hw)
          refine ⟨?_, fun _ => ?_⟩
          · intro x hx
            rcases List.mem_append.1 hx with hx | hx
            · exact g1 x hx
            · simp at hx; subst hx; rfl
          · have := g2 hr
            simp only [List.length_append, List.length_singleton]
            cases hc : s.clean <;> rw [hc] at this <;> simp only [Room] at this ⊢ <;> omega
      · have eq := write_full inv.repr p hf
        simp only [receive, eq, Outcome.bind_ok] at e
        injection e with e; subst e
        have hl1 : l = l1 := repr_unique
          (q := { s.q with overflow := s.q.overflow + 1 })
          ⟨inv.repr.two, inv.repr.rdlt, inv.repr.len, inv.repr.wreq, inv.repr.live, inv.repr.dead⟩ inv'.repr
        subst hl1
        refine ⟨l, inv', hnext, Nat.le_max_right _ _, hlow, ?_⟩
        intro hw
        exfalso
        have hw' : max s.worst (s.since + 1) ≤ R := hw
        obtain ⟨-, g2⟩ := hroom (by omega)
        have := room_le (g2 hr)
        have := hro.1
        rw [inv.size] at hf
        omega
    · simp only [step, hr, if_false] at e
      injection e with e; subst e
      exact ⟨l, inv, hnext, hsw, hlow, hroom⟩
  | record t => exact absurd ha (by simp [Plain])
  | clean =>
    by_cases hr : s.running = true
    · simp only [step, hr, if_true] at e
      have hph := inv.ph hr
      cases hc : s.clean with
      | off =>
        simp only [cleanStep, hc] at e
        by_cases ho : s.q.occupancy > c.limit
        · rw [if_pos ho] at e
          injection e with e; subst e
          have hl1 := repr_unique inv.repr inv'.repr
          subst hl1
          refine ⟨l, inv', hnext, hsw, hlow, fun hw => ⟨(hroom hw).1, fun _ => ?_⟩⟩
          have := (hroom hw).2 hr
          rw [hc] at this; exact this
        · rw [if_neg ho] at e
          injection e with e; subst e
          have hl1 := repr_unique inv.repr inv'.repr
          subst hl1
          refine ⟨l, inv', hnext, Nat.zero_le _, hlow, fun hw => ⟨(hroom hw).1, fun _ => ?_⟩⟩
          rw [inv.repr.occ] at ho
          simp only [hc, Room]; omega
      | counting =>
        simp only [cleanStep, hc] at e
        injection e with e; subst e
        have hl1 := repr_unique inv.repr inv'.repr
        subst hl1
        refine ⟨l, inv', hnext, Nat.zero_le _, hlow, fun hw => ⟨(hroom hw).1, fun _ => ?_⟩⟩
        have g := (hroom hw).2 hr
        rw [hc] at g hph
        simp only [Phase] at hph
        simp only [Room, inv.repr.occ] at g ⊢
        have hw' : s.worst ≤ R := hw
        have := hro.2 _ hph
        omega
      | loop m =>
        rw [hc] at hph
        cases m with
        | zero =>
          simp only [cleanStep, hc] at e
          injection e with e; subst e
          have hl1 := repr_unique inv.repr inv'.repr
          subst hl1
          refine ⟨l, inv', hnext, hsw, hlow, fun hw => ⟨(hroom hw).1, fun _ => ?_⟩⟩
          have := (hroom hw).2 hr
          rw [hc] at this; simp only [Room] at this ⊢; omega
        | succ m =>
          cases l with
          | nil => simp [Phase] at hph
          | cons b l =>
            have hf := Cleanup.frontTs_cons (ts := ts) inv.repr
            have hlt : ts b < s.next := by rw [hnext]; exact hlow b (by simp)
            simp only [cleanStep, hc, hf, Outcome.bind_ok] at e
            rw [if_pos hlt] at e
            injection e with e; subst e
            have hl1 := repr_unique inv.repr inv'.repr
            subst hl1
            refine ⟨b :: l, inv', hnext, hsw, hlow, fun hw => ⟨(hroom hw).1, fun _ => ?_⟩⟩
            have := (hroom hw).2 hr
            rw [hc] at this; simp only [Room] at this ⊢; omega
      | pop m =>
        rw [hc] at hph
        simp only [Phase] at hph
        obtain ⟨q', eq, r, z, -⟩ := pop_ok inv.repr 1 (by omega)
        simp only [cleanStep, hc, eq, Outcome.bind_ok] at e
        injection e with e; subst e
        have hl1 := repr_unique r inv'.repr
        subst hl1
        refine ⟨l.drop 1, inv', hnext, hsw, fun x hx => hlow x (List.mem_of_mem_drop hx),
          fun hw => ⟨(hroom hw).1, fun _ => ?_⟩⟩
        have := (hroom hw).2 hr
        rw [hc] at this; simp only [Room, List.length_drop] at this ⊢; omega
      | ending =>
        rw [hc] at hph
        simp only [Phase] at hph
        cases l with
        | nil => simp at hph
        | cons b l =>
          have hf := Cleanup.frontTs_cons (ts := ts) inv.repr
          simp only [cleanStep, hc, hf, Outcome.bind_ok] at e
          injection e with e; subst e
          have hl1 := repr_unique inv.repr inv'.repr
          subst hl1
          refine ⟨b :: l, inv', hnext, hsw, hlow, fun hw => ⟨(hroom hw).1, fun _ => ?_⟩⟩
          have := (hroom hw).2 hr
          rw [hc] at this; simp only [Room] at this ⊢; omega
    · simp only [step, hr, if_false] at e
      injection e with e; subst e
      exact ⟨l, inv, hnext, hsw, hlow, hroom⟩

theorem rinv_run (ts : P → Nat) {c : Cfg} {n R : Nat} (hk : Keeps c 1) (hro : Roomy c n R) (acts : List (Act P)) :
    ∀ {s s' : St P} {l : List P}, RInv ts c n R s l → (∀ a ∈ acts, Plain ts a) → run ts c s acts = .ok s' →
      ∃ l', RInv ts c n R s' l' := by
  induction acts with
  | nil => intro s s' l h _ e; simp only [run] at e; injection e with e; subst e; exact ⟨l, h⟩
  | cons a as ih =>
    intro s s' l h ha e
    simp only [run] at e
    cases e1 : step ts c s a with
    | ub w => simp [e1] at e
    | throws w => simp [e1] at e
    | ok s1 =>
      simp only [e1, Outcome.bind_ok] at e
      obtain ⟨l1, h1⟩ := rinv_step ts hk hro h (ha a (by simp)) e1
      exact ih h1 (fun b hb => ha b (by simp [hb])) e

/-- While nothing is recorded: if between two moments at which the cleanup thread looks at the occupancy no more than `R`
payloads ever arrive - also in the middle of a pass - and `R` meets `Roomy`, then no payload is refused. -/
theorem C127_not_refused (ts : P → Nat) (c : Cfg) (n R : Nat) (hn : 2 ≤ n)
    (hc : ∀ occ, c.limit < occ → c.pop occ < occ) (hro : Roomy c n R) (acts : List (Act P))
    (hp : ∀ a ∈ acts, Plain ts a) (s : St P) (h : run ts c (St.init P n) acts = .ok s) (hw : s.worst ≤ R) :
    ∀ a ∈ s.hist, a.stored = true := by
  have hk : Keeps c 1 := fun occ h => by have := hc occ h; omega
  have h0 : RInv ts c n R (St.init P n) [] :=
    ⟨inv_init c hn 1, rfl, Nat.le_refl _, by simp, fun _ => ⟨by simp [St.init], by simp [St.init]⟩⟩
  obtain ⟨l, inv⟩ := rinv_run ts hk hro acts h0 hp h
  exact (inv.room hw).1

/-! ### Recordings -/

/-- Steps of the cleanup, arrivals, and positions of the recording that are at most `t`. -/
def UpTo (t : Nat) : Act P → Prop
  | .record x => x ≤ t
  | .recv _ => True
  | .clean => True
  | _ => False

structure Guard (ts : P → Nat) (c : Cfg) (n t : Nat) (v : List P) (s : St P) (l : List P) : Prop where
  inv : Inv c n 1 s l
  next : s.next ≤ t
  front : ∀ m, s.clean = .pop m → ∃ b r, l = b :: r ∧ ts b < t
  has : ∃ u w, l = u ++ (v ++ w)

theorem guard_step (ts : P → Nat) {c : Cfg} {n t : Nat} (hk : Keeps c 1) {v : List P} (hv : ∀ b ∈ v.head?, t ≤ ts b)
    {s s' : St P} {l : List P} (h : Guard ts c n t v s l) {a : Act P} (ha : UpTo t a) (e : step ts c s a = .ok s') :
    ∃ l', Guard ts c n t v s' l' := by
  obtain ⟨s1, l1, e1, inv'⟩ := step_cases ts hk (Nat.le_refl 1) h.inv a
  rw [e] at e1; injection e1 with e1; subst e1
  obtain ⟨inv, hnext, hfr, u, w, hl⟩ := h
  cases a with
  | start => exact absurd ha (by simp [UpTo])
  | stop => exact absurd ha (by simp [UpTo])
  | record x =>
    simp only [step] at e
    injection e with e; subst e
    have hl1 := repr_unique inv.repr inv'.repr
    subst hl1
    exact ⟨l, inv', ha, hfr, u, w, hl⟩
  | recv p =>
    by_cases hr : s.running = true
    · simp only [step, hr, if_true] at e
      by_cases hf : l.length < s.q.size - 1
      · obtain ⟨q', eq, r, z, -⟩ := write_ok inv.repr p hf
        simp only [receive, eq, Outcome.bind_ok] at e
        injection e with e; subst e
        have hl1 := repr_unique r inv'.repr
        subst hl1
        refine ⟨l ++ [p], inv', hnext, ?_, u, w ++ [p], by rw [hl]; simp⟩
        intro m hm
        obtain ⟨b, r', h1, h2⟩ := hfr m hm
        exact ⟨b, r' ++ [p], by rw [h1]; rfl, h2⟩
      · have eq := write_full inv.repr p hf
        simp only [receive, eq, Outcome.bind_ok] at e
        injection e with e; subst e
        have hl1 : l = l1 := repr_unique
          (q := { s.q with overflow := s.q.overflow + 1 })
          ⟨inv.repr.two, inv.repr.rdlt, inv.repr.len, inv.repr.wreq, inv.repr.live, inv.repr.dead⟩ inv'.repr
        subst hl1
        exact ⟨l, inv', hnext, hfr, u, w, hl⟩
    · simp only [step, hr, if_false] at e
      injection e with e; subst e
      exact ⟨l, inv, hnext, hfr, u, w, hl⟩
  | clean =>
    by_cases hr : s.running = true
    · simp only [step, hr, if_true] at e
      have hph := inv.ph hr
      cases hc : s.clean with
      | off =>
        simp only [cleanStep, hc] at e
        by_cases ho : s.q.occupancy > c.limit
        · rw [if_pos ho] at e
          injection e with e; subst e
          have hl1 := repr_unique inv.repr inv'.repr
          subst hl1
          exact ⟨l, inv', hnext, by simp, u, w, hl⟩
        · rw [if_neg ho] at e
          injection e with e; subst e
          have hl1 := repr_unique inv.repr inv'.repr
          subst hl1
          exact ⟨l, inv', hnext, by simp [hc], u, w, hl⟩
      | counting =>
        simp only [cleanStep, hc] at e
        injection e with e; subst e
        have hl1 := repr_unique inv.repr inv'.repr
        subst hl1
        exact ⟨l, inv', hnext, by simp, u, w, hl⟩
      | loop m =>
        rw [hc] at hph
        cases m with
        | zero =>
          simp only [cleanStep, hc] at e
          injection e with e; subst e
          have hl1 := repr_unique inv.repr inv'.repr
          subst hl1
          exact ⟨l, inv', hnext, by simp, u, w, hl⟩
        | succ m =>
          cases l with
          | nil => simp [Phase] at hph
          | cons b l =>
            have hf := Cleanup.frontTs_cons (ts := ts) inv.repr
            simp only [cleanStep, hc, hf, Outcome.bind_ok] at e
            by_cases hlt : ts b < s.next
            · rw [if_pos hlt] at e
              injection e with e; subst e
              have hl1 := repr_unique inv.repr inv'.repr
              subst hl1
              exact ⟨b :: l, inv', hnext, fun _ _ => ⟨b, l, rfl, by omega⟩, u, w, hl⟩
            · rw [if_neg hlt] at e
              injection e with e; subst e
              have hl1 := repr_unique inv.repr inv'.repr
              subst hl1
              exact ⟨b :: l, inv', hnext, by simp, u, w, hl⟩
      | pop m =>
        rw [hc] at hph
        simp only [Phase] at hph
        obtain ⟨q', eq, r, z, -⟩ := pop_ok inv.repr 1 (by omega)
        simp only [cleanStep, hc, eq, Outcome.bind_ok] at e
        injection e with e; subst e
        have hl1 := repr_unique r inv'.repr
        subst hl1
        obtain ⟨b, r', h1, h2⟩ := hfr m hc
        cases u with
        | cons x u =>
          exact ⟨l.drop 1, inv', hnext, by simp, u, w, by rw [hl]; rfl⟩
        | nil =>
          cases v with
          | nil => exact ⟨l.drop 1, inv', hnext, by simp, l.drop 1, [], by simp⟩
          | cons x v =>
            rw [hl] at h1
            simp only [List.nil_append, List.cons_append, List.cons.injEq] at h1
            have := hv x (by simp)
            rw [h1.1] at this
            omega
      | ending =>
        rw [hc] at hph
        simp only [Phase] at hph
        cases l with
        | nil => simp at hph
        | cons b l =>
          have hf := Cleanup.frontTs_cons (ts := ts) inv.repr
          simp only [cleanStep, hc, hf, Outcome.bind_ok] at e
          injection e with e; subst e
          have hl1 := repr_unique inv.repr inv'.repr
          subst hl1
          exact ⟨b :: l, inv', hnext, by simp, u, w, hl⟩
    · simp only [step, hr, if_false] at e
      injection e with e; subst e
      exact ⟨l, inv, hnext, hfr, u, w, hl⟩

/-- While the position of a recording is at most `t`, no pass - whatever arrives or moves the position meanwhile - removes a
payload whose time is `t` or later, or anything behind it. -/
theorem C127_recording_safe_partial (ts : P → Nat) (c : Cfg) (n t : Nat) (hn : 2 ≤ n)
    (hc : ∀ occ, c.limit < occ → c.pop occ < occ) (pre acts : List (Act P)) (s : St P)
    (h : run ts c (St.init P n) pre = .ok s) (hoff : s.clean = .off) (hnext : s.next ≤ t)
    (u v : List P) (hl : Holds s (u ++ v)) (hv : ∀ b ∈ v.head?, t ≤ ts b) (ha : ∀ a ∈ acts, UpTo t a) :
    ∃ s' u' w, run ts c s acts = .ok s' ∧ Holds s' (u' ++ (v ++ w)) := by
  have hk : Keeps c 1 := fun occ h => by have := hc occ h; omega
  obtain ⟨s1, l, e, inv⟩ := inv_run ts hk (Nat.le_refl 1) pre (inv_init c hn 1)
  rw [h] at e; injection e with e; subst e
  have hl1 := repr_unique inv.repr hl
  subst hl1
  have g : Guard ts c n t v s (u ++ v) := ⟨inv, hnext, by simp [hoff], u, [], by simp⟩
  clear hl h hoff hnext inv
  generalize u ++ v = l at g
  induction acts generalizing s l with
  | nil =>
    obtain ⟨u', w, e⟩ := g.has
    refine ⟨s, u', w, rfl, ?_⟩
    have := g.inv.repr
    rw [e] at this; exact this
  | cons a as ih =>
    obtain ⟨s2, l2, e2, -⟩ := step_cases ts hk (Nat.le_refl 1) g.inv a
    obtain ⟨l3, g3⟩ := guard_step ts hk hv g (ha a (by simp)) e2
    obtain ⟨s4, u4, w4, e4, r4⟩ := ih s2 (fun b hb => ha b (by simp [hb])) l3 g3
    exact ⟨s4, u4, w4, by simp [run, e2, e4], r4⟩

/-! ### A whole pass -/

/-- Is it a step of the cleanup thread? -/
def isClean : Act P → Bool
  | .clean => true
  | _ => false

/-- Arrivals and steps of the cleanup thread. -/
def Work (ts : P → Nat) : Act P → Prop
  | .recv p => ts p < noRecording
  | .clean => True
  | _ => False

/-- Removals left. -/
def popsLeft : Clean → Nat
  | .loop n => n
  | .pop n => n + 1
  | _ => 0

/-- Steps left. -/
def stepsLeft : Clean → Nat
  | .loop n => 2 * n + 2
  | .pop n => 2 * n + 3
  | .ending => 1
  | _ => 0

theorem pass_rest (ts : P → Nat) {c : Cfg} {n : Nat} (hk : Keeps c 1) (acts : List (Act P)) :
    ∀ {s : St P} {l : List P}, Inv c n 1 s l → s.running = true → s.clean ≠ .counting → s.next = noRecording →
      (∀ p ∈ l, ts p < noRecording) → (∀ a ∈ acts, Work ts a) → acts.countP isClean = stepsLeft s.clean →
      ∃ s' new, run ts c s acts = .ok s' ∧ s'.clean = .off ∧ Holds s' (l.drop (popsLeft s.clean) ++ new) ∧
        taken s'.hist = taken s.hist ++ new := by
  induction acts with
  | nil =>
    intro s l inv hr hnc hnx hlow _ hcnt
    refine ⟨s, [], rfl, ?_, ?_, by simp⟩
    · cases hc : s.clean <;> simp [hc, stepsLeft] at hcnt hnc ⊢
    · have h0 : popsLeft s.clean = 0 := by
        cases hc : s.clean <;> simp [hc, stepsLeft, popsLeft] at hcnt hnc ⊢
      rw [h0]
      have := inv.repr
      simpa [Holds] using this
  | cons a as ih =>
    intro s l inv hr hnc hnx hlow hw hcnt
    have hwas : ∀ b ∈ as, Work ts b := fun b hb => hw b (by simp [hb])
    obtain ⟨s1, l1, e, inv'⟩ := step_cases ts hk (Nat.le_refl 1) inv a
    have hph := inv.ph hr
    cases a with
    | start => exact (hw (.start) (by simp)).elim
    | stop => exact (hw (.stop) (by simp)).elim
    | record x => exact (hw (.record x) (by simp)).elim
    | recv p =>
      have hp : ts p < noRecording := hw (.recv p) (by simp)
      have hcnt' : as.countP isClean = stepsLeft s.clean := by simpa [isClean] using hcnt
      have hpl : popsLeft s.clean ≤ l.length := by
        cases hc : s.clean <;> rw [hc] at hph <;> simp only [Phase, popsLeft] at hph ⊢ <;> omega
      have e' := e
      simp only [step, hr, if_true] at e
      by_cases hf : l.length < s.q.size - 1
      · obtain ⟨q', eq, r, z, -⟩ := write_ok inv.repr p hf
        simp only [receive, eq, Outcome.bind_ok] at e
        injection e with e; subst e
        have hl1 := repr_unique r inv'.repr
        subst hl1
        obtain ⟨s2, new, e2, o2, r2, t2⟩ := ih inv' hr hnc hnx (by
          intro x hx
          rcases List.mem_append.1 hx with hx | hx
          · exact hlow x hx
          · simp at hx; subst hx; exact hp) hwas hcnt'
        refine ⟨s2, p :: new, by simp only [run, e', Outcome.bind_ok]; exact e2, o2, ?_, ?_⟩
        · simp only at r2
          rw [List.drop_append_of_le_length hpl] at r2
          simpa using r2
        · rw [t2]; simp only [taken_append, if_true]; simp
      · have eq := write_full inv.repr p hf
        simp only [receive, eq, Outcome.bind_ok] at e
        injection e with e; subst e
        have hl1 : l = l1 := repr_unique
          (q := { s.q with overflow := s.q.overflow + 1 })
          ⟨inv.repr.two, inv.repr.rdlt, inv.repr.len, inv.repr.wreq, inv.repr.live, inv.repr.dead⟩ inv'.repr
        subst hl1
        obtain ⟨s2, new, e2, o2, r2, t2⟩ := ih inv' hr hnc hnx hlow hwas hcnt'
        refine ⟨s2, new, by simp only [run, e', Outcome.bind_ok]; exact e2, o2, r2, ?_⟩
        rw [t2]; simp [taken_append]
    | clean =>
      have hcnt' : as.countP isClean + 1 = stepsLeft s.clean := by
        rw [List.countP_cons_of_pos rfl] at hcnt; exact hcnt
      have e' := e
      simp only [step, hr, if_true] at e
      cases hc : s.clean with
      | off => rw [hc] at hcnt'; simp [stepsLeft] at hcnt'
      | counting => exact absurd hc hnc
      | loop m =>
        rw [hc] at hph hcnt'
        cases m with
        | zero =>
          simp only [cleanStep, hc] at e
          injection e with e; subst e
          have hl1 := repr_unique inv.repr inv'.repr
          subst hl1
          obtain ⟨s2, new, e2, o2, r2, t2⟩ := ih inv' hr (by simp) hnx hlow hwas (by simpa [stepsLeft] using hcnt')
          exact ⟨s2, new, by simp only [run, e', Outcome.bind_ok]; exact e2, o2, r2, t2⟩
        | succ m =>
          cases l with
          | nil => simp [Phase] at hph
          | cons b l =>
            have hf := Cleanup.frontTs_cons (ts := ts) inv.repr
            simp only [cleanStep, hc, hf, Outcome.bind_ok] at e
            rw [if_pos (by rw [hnx]; exact hlow b (by simp))] at e
            injection e with e; subst e
            have hl1 := repr_unique inv.repr inv'.repr
            subst hl1
            obtain ⟨s2, new, e2, o2, r2, t2⟩ := ih inv' hr (by simp) hnx hlow hwas
              (by simp only [stepsLeft] at hcnt' ⊢; omega)
            exact ⟨s2, new, by simp only [run, e', Outcome.bind_ok]; exact e2, o2, r2, t2⟩
      | pop m =>
        rw [hc] at hph hcnt'
        simp only [Phase] at hph
        obtain ⟨q', eq, r, z, -⟩ := pop_ok inv.repr 1 (by omega)
        simp only [cleanStep, hc, eq, Outcome.bind_ok] at e
        injection e with e; subst e
        have hl1 := repr_unique r inv'.repr
        subst hl1
        obtain ⟨s2, new, e2, o2, r2, t2⟩ := ih inv' hr (by simp) hnx (fun x hx => hlow x (List.mem_of_mem_drop hx)) hwas
          (by simp only [stepsLeft] at hcnt' ⊢; omega)
        refine ⟨s2, new, by simp only [run, e', Outcome.bind_ok]; exact e2, o2, ?_, t2⟩
        simpa [popsLeft, List.drop_drop, Nat.add_comm] using r2
      | ending =>
        rw [hc] at hph hcnt'
        simp only [Phase] at hph
        cases l with
        | nil => simp at hph
        | cons b l =>
          have hf := Cleanup.frontTs_cons (ts := ts) inv.repr
          simp only [cleanStep, hc, hf, Outcome.bind_ok] at e
          injection e with e; subst e
          have hl1 := repr_unique inv.repr inv'.repr
          subst hl1
          obtain ⟨s2, new, e2, o2, r2, t2⟩ := ih inv' hr (by simp) hnx hlow hwas (by simpa [stepsLeft] using hcnt')
          exact ⟨s2, new, by simp only [run, e', Outcome.bind_ok]; exact e2, o2, r2, t2⟩

theorem plain_low (ts : P → Nat) {c : Cfg} (acts : List (Act P)) :
    ∀ {s s' : St P}, (∀ a ∈ s.hist, ts a.p < noRecording) → (∀ a ∈ acts, Plain ts a) → run ts c s acts = .ok s' →
      (∀ a ∈ s'.hist, ts a.p < noRecording) ∧ s'.next = s.next := by
  induction acts with
  | nil => intro s s' h _ e; simp only [run] at e; injection e with e; subst e; exact ⟨h, rfl⟩
  | cons a as ih =>
    intro s s' h ha e
    simp only [run] at e
    cases e1 : step ts c s a with
    | ub w => simp [e1] at e
    | throws w => simp [e1] at e
    | ok s1 =>
      simp only [e1, Outcome.bind_ok] at e
      have key : (∀ a ∈ s1.hist, ts a.p < noRecording) ∧ s1.next = s.next := by
        cases a with
        | start =>
          simp only [step] at e1
          split at e1 <;> injection e1 with e1 <;> subst e1
          · exact ⟨h, rfl⟩
          · exact ⟨by simp, rfl⟩
        | stop =>
          simp only [step] at e1
          split at e1
          · simp only [stop] at e1
            cases e2 : s.q.flush with
            | ub w => simp [e2] at e1
            | throws w => simp [e2] at e1
            | ok q' => simp only [e2, Outcome.bind_ok] at e1; injection e1 with e1; subst e1; exact ⟨h, rfl⟩
          · injection e1 with e1; subst e1; exact ⟨h, rfl⟩
        | recv p =>
          simp only [step] at e1
          split at e1
          · simp only [receive] at e1
            cases e2 : s.q.write p with
            | ub w => simp [e2] at e1
            | throws w => simp [e2] at e1
            | ok r =>
              simp only [e2, Outcome.bind_ok] at e1
              injection e1 with e1; subst e1
              refine ⟨?_, rfl⟩
              intro x hx
              rcases List.mem_append.1 hx with hx | hx
              · exact h x hx
              · simp at hx; subst hx; exact ha (.recv p) (by simp)
          · injection e1 with e1; subst e1; exact ⟨h, rfl⟩
        | record t => exact (ha (.record t) (by simp)).elim
        | clean =>
          simp only [step] at e1
          split at e1
          · have hh : s1.hist = s.hist ∧ s1.next = s.next := by
              simp only [cleanStep] at e1
              split at e1
              · split at e1 <;> injection e1 with e1 <;> subst e1 <;> exact ⟨rfl, rfl⟩
              · injection e1 with e1; subst e1; exact ⟨rfl, rfl⟩
              · injection e1 with e1; subst e1; exact ⟨rfl, rfl⟩
              · cases e2 : Cleanup.frontTs ts s.q with
                | ub w => simp [e2] at e1
                | throws w => simp [e2] at e1
                | ok t =>
                  simp only [e2, Outcome.bind_ok] at e1
                  split at e1 <;> injection e1 with e1 <;> subst e1 <;> exact ⟨rfl, rfl⟩
              · cases e2 : s.q.pop 1 with
                | ub w => simp [e2] at e1
                | throws w => simp [e2] at e1
                | ok t => simp only [e2, Outcome.bind_ok] at e1; injection e1 with e1; subst e1; exact ⟨rfl, rfl⟩
              · cases e2 : Cleanup.frontTs ts s.q with
                | ub w => simp [e2] at e1
                | throws w => simp [e2] at e1
                | ok t => simp only [e2, Outcome.bind_ok] at e1; injection e1 with e1; subst e1; exact ⟨rfl, rfl⟩
            rw [hh.1]; exact ⟨h, hh.2⟩
          · injection e1 with e1; subst e1; exact ⟨h, rfl⟩
      obtain ⟨g1, g2⟩ := ih key.1 (fun b hb => ha b (by simp [hb])) e
      exact ⟨g1, g2.trans key.2⟩

/-- A whole pass while nothing is recorded. When the cleanup thread counts, the buffer holds `l`, more than the limit. After the
steps of the pass, with any arrivals in between, the buffer holds `l` without its oldest `pop |l|` payloads, then exactly those
arrivals that it took. -/
theorem C127_pass (ts : P → Nat) (c : Cfg) (n : Nat) (hn : 2 ≤ n) (hc : ∀ occ, c.limit < occ → c.pop occ < occ)
    (pre : List (Act P)) (hp : ∀ a ∈ pre, Plain ts a) (s : St P) (h : run ts c (St.init P n) pre = .ok s)
    (hr : s.running = true) (hcl : s.clean = .counting) (l : List P) (hl : Holds s l) (acts : List (Act P))
    (hw : ∀ a ∈ acts, Work ts a) (hcnt : acts.countP isClean = 2 * c.pop l.length + 2) :
    c.limit < l.length ∧ ∃ s' new, run ts c s (.clean :: acts) = .ok s' ∧ s'.clean = .off ∧
      Holds s' (l.drop (c.pop l.length) ++ new) ∧ taken s'.hist = taken s.hist ++ new := by
  have hk : Keeps c 1 := fun occ h => by have := hc occ h; omega
  obtain ⟨s0, l0, e0, inv⟩ := inv_run ts hk (Nat.le_refl 1) pre (inv_init c hn 1)
  rw [h] at e0; injection e0 with e0; subst e0
  have hl1 := repr_unique inv.repr hl
  subst hl1
  obtain ⟨hlow, hnx⟩ := plain_low ts pre (by simp [St.init]) hp h
  have hph := inv.ph hr
  rw [hcl] at hph
  obtain ⟨s1, l1, e1, inv'⟩ := step_cases ts hk (Nat.le_refl 1) inv .clean
  have e2 := e1
  simp only [step, hr, if_true, cleanStep, hcl] at e2
  injection e2 with e2; subst e2
  have hl1 := repr_unique inv.repr inv'.repr
  subst hl1
  refine ⟨hph, ?_⟩
  have low : ∀ p ∈ l0, ts p < noRecording := by
    intro p hp
    obtain ⟨u, hu⟩ := inv.suf
    have : p ∈ taken s.hist := by rw [← hu]; simp [hp]
    simp only [taken, List.mem_map, List.mem_filter] at this
    obtain ⟨a, ⟨h1, -⟩, h2⟩ := this
    rw [← h2]; exact hlow a h1
  obtain ⟨s2, new, g1, g2, g3, g4⟩ := pass_rest ts hk acts inv' (by rfl) (by simp) hnx low hw
    (by simp only [stepsLeft, inv.repr.occ]; exact hcnt)
  refine ⟨s2, new, ?_, g2, ?_, g4⟩
  · simp only [run, e1, Outcome.bind_ok]; exact g1
  · simp only [popsLeft, inv.repr.occ] at g3
    exact g3

/-! ### The configured fractions -/

/-- A number of payloads that may arrive between two looks of the cleanup thread at the occupancy: twice it fits above the limit
fraction `lim`, and it is below the fraction `rem` of the limit, whatever single precision arithmetic does. -/
def Fits (lim rem : ℚ) (n R : Nat) : Prop :=
  lim * n * (1 + 1 / 16777216) ^ 2 + 2 * R ≤ n - 1 ∧ (R : ℚ) + 1 ≤ rem * (lim * n * (1 - 1 / 16777216) ^ 2) * (1 - 1 / 16777216) ^ 2

theorem pop_lt {rnd : ℚ → ℚ} (hs : Conf.Single rnd) {rem : ℚ} (h1 : 0 ≤ rem) (h2 : rem ≤ 1 - 1 / 4194304) (occ : Nat)
    (ho : 0 < occ) : Cleanup.toPopOf rnd rem occ < occ := by
  have hu := Retain.toPop_le hs h1 occ
  have hc : (0 : ℚ) < occ := by exact_mod_cast ho
  have h3 : rem * (1 + 1 / 16777216) ^ 2 < 1 := by nlinarith
  have : (Cleanup.toPopOf rnd rem occ : ℚ) < occ := by nlinarith
  exact_mod_cast this

/-- **C127 with the settings of a configuration**: accepted fractions `lim` and `rem` and the true buffer size. No interleaving
crashes; at every moment of a run the buffer holds, in order, the last `K` payloads that it took in this run, or all if fewer,
for every `K` up to about `(1 - rem) * lim * n`. -/
theorem C127_configured_partial (ts : P → Nat) (rnd : ℚ → ℚ) (hs : Conf.Single rnd) (h : Conf.Handler) (p : Conf.Params) (n K : Nat)
    (hn : 2 ≤ n) (hok : Cleanup.Accepted p.limitPct p.sizePct) (hcap : p.capacity = n)
    (hmax : p.sizePct ≤ 1 - 1 / 4194304) (hk : Retain.Kept p.limitPct p.sizePct n K) (hk1 : 1 ≤ K) (acts : List (Act P)) :
    ∃ s, run ts (cfgOf rnd (Conf.conf rnd h p).1) (St.init P n) acts = .ok s ∧
      (s.running = true → ∃ l, Holds s l ∧ l <:+ taken s.hist ∧
        ∀ recent, recent <:+ taken s.hist → recent.length ≤ K → recent <:+ l) := by
  have hke : Keeps (cfgOf rnd (Conf.conf rnd h p).1) K := Retain.keeps_of hs h p hok hcap hmax hk
  obtain ⟨s, e⟩ := C127_no_crash_partial ts (cfgOf rnd (Conf.conf rnd h p).1) n hn
    (fun occ ho => by
      have := hke occ ho
      omega) acts
  refine ⟨s, e, fun hr => ?_⟩
  obtain ⟨l, h1, h2, h3⟩ := C127_recent_stay ts _ n K hn hke hk1 acts s e hr
  refine ⟨l, h1, h2, ?_⟩
  intro recent g1 g2
  rcases h3 with h3 | h3
  · exact List.suffix_of_suffix_length_le g1 h2 (by omega)
  · rw [h3]; exact g1

/-- **C127 with the settings of a configuration, nothing refused.** -/
theorem C127_configured_room_partial (ts : P → Nat) (rnd : ℚ → ℚ) (hs : Conf.Single rnd) (h : Conf.Handler) (p : Conf.Params)
    (n R : Nat) (hn : 2 ≤ n) (hok : Cleanup.Accepted p.limitPct p.sizePct) (hcap : p.capacity = n)
    (hmax : p.sizePct ≤ 1 - 1 / 4194304) (hf : Fits p.limitPct p.sizePct n R) (acts : List (Act P))
    (hp : ∀ a ∈ acts, Plain ts a) (s : St P)
    (hx : run ts (cfgOf rnd (Conf.conf rnd h p).1) (St.init P n) acts = .ok s) (hw : s.worst ≤ R) :
    ∀ a ∈ s.hist, a.stored = true := by
  obtain ⟨-, c1, c2⟩ := Conf.C72_accepted_not_reported rnd h p hok
  obtain ⟨h1, h2, h3, h4⟩ := hok
  rw [hcap] at c1
  refine C127_not_refused ts _ n R hn ?_ ⟨?_, ?_⟩ acts hp s hx hw
  · intro occ ho
    simp only [cfgOf, c2]
    exact pop_lt hs h3 hmax occ (by omega)
  · simp only [cfgOf, c1]
    have := Retain.toPop_le hs h1 n
    have h5 := hf.1
    have hc : ((n - 1 : ℕ) : ℚ) = (n : ℚ) - 1 := by rw [Nat.cast_sub (by omega)]; simp
    have : ((Cleanup.toPopOf rnd p.limitPct n + 2 * R : ℕ) : ℚ) ≤ (n - 1 : ℕ) := by rw [hc]; push_cast; linarith
    exact_mod_cast this
  · intro occ ho
    simp only [cfgOf, c1, c2] at ho ⊢
    have g1 := Retain.toPop_ge hs h1 n
    have g2 := Retain.toPop_ge hs h3 occ
    have ho' : (Cleanup.toPopOf rnd p.limitPct n : ℚ) + 1 ≤ occ := by exact_mod_cast ho
    have h5 := hf.2
    have g3 : p.limitPct * n * (1 - 1 / 16777216) ^ 2 ≤ occ := by linarith
    have g4 : p.sizePct * (p.limitPct * n * (1 - 1 / 16777216) ^ 2) * (1 - 1 / 16777216) ^ 2 ≤
        p.sizePct * occ * (1 - 1 / 16777216) ^ 2 :=
      mul_le_mul_of_nonneg_right (mul_le_mul_of_nonneg_left g3 h3) (by positivity)
    have : (R : ℚ) < Cleanup.toPopOf rnd p.sizePct occ := by linarith
    have : R < Cleanup.toPopOf rnd p.sizePct occ := by exact_mod_cast this
    omega

/-- The default settings (half full, remove 80 %, 100000 payloads) allow 24990 payloads between two looks, those of app_confgen.py
for 500000 payloads (80 % full, remove 10 %) 39990. -/
example : Fits (1/2) (4/5) 100000 24990 ∧ Fits (4/5) (1/10) 500000 39990 := by
  refine ⟨⟨?_, ?_⟩, ?_, ?_⟩ <;> norm_num

/-! ### Concrete executions -/

/-- A buffer of 6 slots, limit 2, removal down to two. -/
def small : Cfg := ⟨2, fun occ => occ - 2⟩

/-- The atomic bound of C100 (`Retain.Roomy`): `R` fits above the limit and below what a pass removes. -/
def AtomicRoomy (c : Cfg) (n R : Nat) : Prop := c.limit + R ≤ n - 1 ∧ ∀ occ, occ < n → occ + R ≤ n - 1 + c.pop occ

/-- Three arrivals, the cleanup thread counts three, and before it removes one, three more arrive. -/
def burst : List (Act Nat) :=
  [.start, .recv 10, .recv 20, .recv 30, .clean, .clean, .recv 40, .recv 50, .recv 60, .clean, .clean, .clean, .clean]

/-- The bound that is right if a pass takes no time does not suffice when payloads arrive during a pass: the last of these is
refused. -/
theorem C127_slow_pass_counterexample : ¬ ∀ (c : Cfg) (n R : Nat), 2 ≤ n → (∀ occ, c.limit < occ → c.pop occ < occ) →
    AtomicRoomy c n R → ∀ (acts : List (Act Nat)), (∀ a ∈ acts, Plain id a) → ∀ s,
    run id c (St.init Nat n) acts = .ok s → s.worst ≤ R → ∀ a ∈ s.hist, a.stored = true := by
  intro h
  have h1 : ∃ s, run id small (St.init Nat 6) burst = .ok s ∧ s.worst = 3 ∧
      s.hist = [⟨10, true⟩, ⟨20, true⟩, ⟨30, true⟩, ⟨40, true⟩, ⟨50, true⟩, ⟨60, false⟩] := ⟨_, rfl, rfl, rfl⟩
  obtain ⟨s, e, w, hh⟩ := h1
  have := h small 6 3 (by decide) (by intro occ ho; simp only [small] at ho ⊢; omega)
    ⟨by decide, by intro occ ho; simp only [small]; omega⟩ burst
    (by intro a ha; simp only [burst, List.mem_cons, List.not_mem_nil, or_false] at ha
        rcases ha with rfl | rfl | rfl | rfl | rfl | rfl | rfl | rfl | rfl | rfl | rfl | rfl | rfl <;>
          simp [Plain, noRecording]) s e (by omega) ⟨60, false⟩ (by simp [hh])
  simp at this

/-- Non-vacuous: the same link with one arrival fewer between two looks (`Roomy` with `R = 1`, arrivals in the middle of the
pass); nothing is refused, and the pass has removed the oldest. -/
example : Roomy small 6 1 ∧ Keeps small 2 ∧ ∃ s, run id small (St.init Nat 6)
    [.start, .recv 10, .clean, .recv 20, .clean, .recv 30, .clean, .clean, .recv 40, .clean, .clean, .clean, .clean] = .ok s ∧
    s.worst = 1 ∧ s.running = true ∧ taken s.hist = [10, 20, 30, 40] ∧ s.clean = .off ∧
    s.q.visit 6 s.q.begin = .ok ([20, 30, 40], endIdx) := by
  refine ⟨⟨by decide, ?_⟩, ?_, _, rfl, rfl, rfl, rfl, rfl, rfl⟩
  · intro occ ho; simp only [small] at ho ⊢; omega
  · intro occ ho; simp only [small] at ho ⊢; omega

/-- Non-vacuous for `C127_pass`: the cleanup thread counts three while three are held; one removal, two arrivals during it. -/
example : ∃ s, run id small (St.init Nat 6) [.start, .recv 10, .recv 20, .recv 30, .clean] = .ok s ∧ s.running = true ∧
    s.clean = .counting ∧ Holds s [10, 20, 30] ∧
    ([.clean, .recv 40, .clean, .recv 50, .clean, .clean] : List (Act Nat)).countP isClean = 2 * small.pop 3 + 2 := by
  have h1 : ∃ s, run id small (St.init Nat 6) [.start, .recv 10, .recv 20, .recv 30, .clean] = .ok s ∧ s.running = true ∧
    s.clean = .counting ∧ taken s.hist = [10, 20, 30] ∧ s.q.occupancy = 3 := ⟨_, rfl, rfl, rfl, rfl, rfl⟩
  obtain ⟨s, e, r, k, t, o⟩ := h1
  refine ⟨s, e, r, k, ?_, rfl⟩
  obtain ⟨l, g1, g2, -⟩ := C127_recent_stay id small 6 2 (by decide)
    (by intro occ ho; simp only [small] at ho ⊢; omega) (by decide) _ s e r
  have := g1.occ
  rw [t] at g2
  rw [g2.eq_of_length (by rw [← this, o]; rfl)] at g1
  exact g1

/-- Non-vacuous for `C127_recording_safe_partial`: a recording stands at 20; the pass counts four and would remove two, an arrival and a
step of the recording come in between; 20 and all behind it stay. -/
example : ∃ s s', run id small (St.init Nat 6) [.start, .recv 10, .recv 20, .recv 30, .recv 40, .record 20] = .ok s ∧
    s.clean = .off ∧ s.next ≤ 20 ∧ s.q.visit 6 s.q.begin = .ok ([10, 20, 30, 40], endIdx) ∧
    run id small s [.clean, .clean, .clean, .record 15, .recv 50, .clean, .clean, .clean] = .ok s' ∧ s'.clean = .off ∧
    s'.q.visit 6 s'.q.begin = .ok ([20, 30, 40, 50], endIdx) :=
  ⟨_, _, rfl, rfl, Nat.le_refl _, rfl, rfl, rfl, rfl⟩

/-- A recording that sets its position between the test and the removal does not save the payload tested: the position is 5, and
the payload of time 10 goes. -/
theorem C127_mid_pass_counterexample : ∃ s s', run id small (St.init Nat 6)
    [.start, .recv 10, .recv 20, .recv 30, .clean, .clean, .clean, .record 5] = .ok s ∧ s.next = 5 ∧
    s.q.visit 6 s.q.begin = .ok ([10, 20, 30], endIdx) ∧ run id small s [.clean] = .ok s' ∧
    s'.q.visit 6 s'.q.begin = .ok ([20, 30], endIdx) :=
  ⟨_, _, rfl, rfl, rfl, rfl, rfl⟩

/-- The hypothesis of `C127_no_crash_partial` is needed: a pass that removes all that it counted looks at the front of an empty buffer. -/
theorem C127_all_counterexample : ∃ c : Cfg, c.pop 1 = 1 ∧
    run id c (St.init Nat 6) [.start, .recv 10, .clean, .clean, .clean, .clean, .clean, .clean] = .ub .nullDeref :=
  ⟨⟨0, fun occ => occ⟩, rfl, rfl⟩

end Verif.ConcClean
