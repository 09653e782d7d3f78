import Verif.RegConcModel
/-
Property C87: concurrent calls on the error registry take effect one at a time.

The specification is an indivisible registry: a function from names to intervals on which every
call takes effect in one step somewhere between its call and its return (`SpStep false`). A list
of calls and returns is *linearizable* if the indivisible registry can show it.
-/
namespace Verif.RegConc
open Verif.Registry

/-! ### Specification -/

/-- The contents: for each name the registered interval, if any. -/
abbrev Contents := String → Option Interval

/-- Effect of a call on the contents. -/
def effect : Call → Contents → Contents
  | .add n iv, m => fun x => if x = n then some iv else m x
  | .removeUntil ts, m => fun x => (m x).filter (fun iv => decide (ts ≤ iv.endTs))
  | _, m => m

/-- Right answers of a call. -/
def Result : Call → Contents → Option Bool → Prop
  | .add _ _, _, r => r = none
  | .removeUntil _, _, r => r = none
  | .has n, m, r => ∃ b, r = some b ∧ (b = true ↔ ∃ iv, m n = some iv)
  | .hasAny, m, r => ∃ b, r = some b ∧ (b = true ↔ ∃ n iv, m n = some iv)

/-- A thread of the specification. -/
inductive SpSt where
  | idle
  | called (c : Call)
  | done (c : Call) (r : Option Bool)

structure Sp where
  reg : Contents
  st : Nat → SpSt

/-- The empty registry, nobody calling. -/
def spFresh : Sp := ⟨fun _ => none, fun _ => .idle⟩

/-- The names a query asks about. -/
def Asks : Call → String → Prop
  | .has n, x => x = n
  | .hasAny, _ => True
  | _, _ => False

/-- The call is a query. -/
def IsQuery : Call → Prop
  | .has _ => True
  | .hasAny => True
  | _ => False

/-- A call is under way that is replacing or removing the entry of `n`. -/
def InDoubt (a : Sp) (n : String) : Prop :=
  (∃ t iv, a.st t = .called (.add n iv)) ∨
  (∃ t ts iv, a.st t = .called (.removeUntil ts) ∧ a.reg n = some iv ∧ ts > iv.endTs)

/-- The indivisible registry (`weak = false`). With `weak = true` a query may in addition miss
entries that are being replaced or removed at that moment. -/
inductive SpStep (weak : Bool) : Sp → Option Ev → Sp → Prop
  | call (a : Sp) (t : Nat) (c : Call) : a.st t = .idle →
      SpStep weak a (some (.call t c)) { a with st := upd a.st t (.called c) }
  | ret (a : Sp) (t : Nat) (c : Call) (r : Option Bool) : a.st t = .done c r →
      SpStep weak a (some (.ret t c r)) { a with st := upd a.st t .idle }
  | effect (a : Sp) (t : Nat) (c : Call) (r : Option Bool) : a.st t = .called c →
      Result c a.reg r →
      SpStep weak a none ⟨effect c a.reg, upd a.st t (.done c r)⟩
  | missed (a : Sp) (t : Nat) (c : Call) : weak = true → a.st t = .called c → IsQuery c →
      (∀ n, Asks c n → a.reg n = none ∨ InDoubt a n) →
      SpStep weak a none { a with st := upd a.st t (.done c (some false)) }

/-- The observed calls and returns can be explained by calls taking effect one at a time. -/
def Linearizable (h : List Ev) : Prop := ∃ a, Trace (SpStep false) spFresh h a

/-- … except that queries may miss entries being replaced or removed. -/
def WeaklyLinearizable (h : List Ev) : Prop := ∃ a, Trace (SpStep true) spFresh h a

/-! ### Simulation -/

/-- The thread holds the mutex. -/
def Holds : Pc → Bool
  | .add1 .. | .add2 .. | .add3 .. | .add4 .. | .rem1 .. | .rem2 _ | .has1 _ | .has2 .. => true
  | _ => false

def statusOf : Pc → SpSt
  | .idle => .idle
  | .add0 n iv | .add1 n iv | .add2 n iv | .add3 n iv => .called (.add n iv)
  | .add4 n iv => .done (.add n iv) none
  | .rem0 ts | .rem1 ts _ => .called (.removeUntil ts)
  | .rem2 ts => .done (.removeUntil ts) none
  | .has0 c | .has1 c => .called c
  | .has2 c r => .done c (some r)
  | .done c r => .done c r

/-- How the map relates to the contents, given what the owner of the mutex is doing. -/
def MapRel (map : Reg) (reg : Contents) : Pc → Prop
  | .add3 n _ => ∀ m iv, (m, iv) ∈ map ↔ m ≠ n ∧ reg m = some iv
  | .rem1 ts i => (∀ e ∈ map.take i, ¬ ts > e.2.endTs) ∧
      (∀ m iv, (m, iv) ∈ map → reg m = some iv) ∧
      (∀ m iv, reg m = some iv → (m, iv) ∈ map ∨ ts > iv.endTs)
  | _ => ∀ m iv, (m, iv) ∈ map ↔ reg m = some iv

/-- What the owner of the mutex is doing. -/
def ownerPc (s : St) : Pc :=
  match s.owner with
  | none => .idle
  | some t => s.pc t

structure Rel (s : St) (a : Sp) : Prop where
  st : a.st = fun t => statusOf (s.pc t)
  own : ∀ t, Holds (s.pc t) = true ↔ s.owner = some t
  map : MapRel s.map a.reg (ownerPc s)
  query : ∀ t c, s.pc t = .has0 c ∨ s.pc t = .has1 c → IsQuery c

theorem upd_same {β : Type} (f : Nat → β) (t : Nat) (b : β) : upd f t b t = b := by simp [upd]

theorem upd_status (pc : Nat → Pc) (t : Nat) (p : Pc) :
    (fun u => statusOf (upd pc t p u)) = upd (fun u => statusOf (pc u)) t (statusOf p) := by
  funext u; simp only [upd]; split <;> rfl

theorem upd_self {β : Type} (f : Nat → β) (t : Nat) (b : β) (h : f t = b) : upd f t b = f := by
  funext u; simp only [upd]; split
  · next e => rw [e, h]
  · rfl

theorem named_iff (r : Reg) (n : String) : hasErrorNamed r n = true ↔ ∃ iv, (n, iv) ∈ r := by
  simp only [hasErrorNamed, List.any_eq_true, decide_eq_true_eq]
  constructor
  · rintro ⟨⟨m, iv⟩, h, rfl⟩; exact ⟨iv, h⟩
  · rintro ⟨iv, h⟩; exact ⟨(n, iv), h, rfl⟩

theorem any_iff (r : Reg) : hasError r = true ↔ ∃ n iv, (n, iv) ∈ r := by
  cases r with
  | nil => simp [hasError]
  | cons e r => simp only [hasError]; constructor
                · intro _; exact ⟨e.1, e.2, by simp⟩
                · intro _; rfl

theorem mem_eraseName (r : Reg) (n m : String) (iv : Interval) :
    (m, iv) ∈ eraseName r n ↔ m ≠ n ∧ (m, iv) ∈ r := by
  simp [eraseName, and_comm]

theorem rel_fresh : Rel fresh spFresh where
  st := rfl
  own := by intro t; simp [fresh, Holds]
  map := by intro m iv; simp [fresh, spFresh]
  query := by intro t c h; simp [fresh] at h

/-- Ownership after a step of thread `t` that keeps the owner. -/
theorem own_keep (s : St) (t : Nat) (p : Pc) (ho : ∀ u, Holds (s.pc u) = true ↔ s.owner = some u)
    (hp : Holds p = Holds (s.pc t)) :
    ∀ u, Holds (upd s.pc t p u) = true ↔ s.owner = some u := by
  intro u
  by_cases e : u = t
  · subst e; rw [upd_same, hp]; exact ho u
  · simp only [upd, e, if_false]; exact ho u

theorem own_take (s : St) (t : Nat) (p : Pc) (ho : ∀ u, Holds (s.pc u) = true ↔ s.owner = some u)
    (hn : s.owner = none) (hp : Holds p = true) :
    ∀ u, Holds (upd s.pc t p u) = true ↔ some t = some u := by
  intro u
  by_cases e : u = t
  · subst e; rw [upd_same, hp]; simp
  · simp only [upd, e, if_false, ho u, hn]
    constructor
    · intro h; cases h
    · intro h; injection h with h; exact absurd h.symm e

theorem own_free (s : St) (t : Nat) (p : Pc) (ho : ∀ u, Holds (s.pc u) = true ↔ s.owner = some u)
    (hn : Holds (s.pc t) = true) (hp : Holds p = false) :
    ∀ u, Holds (upd s.pc t p u) = true ↔ (none : Option Nat) = some u := by
  intro u
  by_cases e : u = t
  · subst e; rw [upd_same, hp]; simp
  · simp only [upd, e, if_false, ho u, (ho t).1 hn]
    constructor
    · intro h; injection h with h; exact absurd h.symm e
    · intro h; cases h

theorem query_upd (s : St) (t : Nat) (p : Pc)
    (hq : ∀ u c, s.pc u = .has0 c ∨ s.pc u = .has1 c → IsQuery c)
    (hp : ∀ c, p = .has0 c ∨ p = .has1 c → IsQuery c) :
    ∀ u c, upd s.pc t p u = .has0 c ∨ upd s.pc t p u = .has1 c → IsQuery c := by
  intro u c
  simp only [upd]
  split
  · exact hp c
  · exact hq u c

/-- A thread that does not hold the mutex moves: the owner's position is unchanged. -/
theorem ownerPc_other (s : St) (t : Nat) (p : Pc)
    (ho : ∀ u, Holds (s.pc u) = true ↔ s.owner = some u) (hn : Holds (s.pc t) = false) :
    ownerPc { s with pc := upd s.pc t p } = ownerPc s := by
  simp only [ownerPc]
  cases h : s.owner with
  | none => rfl
  | some u =>
    have : u ≠ t := by
      rintro rfl
      have := (ho u).2 h
      rw [hn] at this; cases this
    simp [upd, this]

theorem ownerPc_mine (s : St) (t : Nat)
    (ho : ∀ u, Holds (s.pc u) = true ↔ s.owner = some u) (hn : Holds (s.pc t) = true) :
    ownerPc s = s.pc t := by
  simp [ownerPc, (ho t).1 hn]

/-- Answers read from a map that equals the contents are right. -/
theorem answer_right (map : Reg) (reg : Contents) (c : Call) (hq : IsQuery c)
    (h : ∀ m iv, (m, iv) ∈ map ↔ reg m = some iv) : Result c reg (some (answer map c)) := by
  cases c with
  | add n iv => cases hq
  | removeUntil ts => cases hq
  | has n =>
    refine ⟨_, rfl, ?_⟩
    rw [answer, named_iff]; simp only [h]
  | hasAny =>
    refine ⟨_, rfl, ?_⟩
    rw [show answer map .hasAny = hasError map from rfl, any_iff]; simp only [h]

theorem effect_query (c : Call) (hq : IsQuery c) (m : Contents) : effect c m = m := by
  cases c <;> first | rfl | cases hq

/-- Every step of the code is matched by at most one step of the specification. -/
theorem simulate (lk : Bool) (s s' : St) (e : Option Ev) (a : Sp) (hr : Rel s a)
    (hs : Step lk s e s') :
    ∃ a', Rel s' a' ∧ (SpStep (!lk) a e a' ∨ (e = none ∧ a' = a)) := by
  obtain ⟨hst, ho, hm, hq⟩ := hr
  have stOf : ∀ t, a.st t = statusOf (s.pc t) := fun t => by rw [hst]
  cases hs with
  | call t c hp =>
    refine ⟨{ a with st := upd a.st t (.called c) }, ⟨?_, ?_, ?_, ?_⟩,
      .inl (.call a t c (by rw [stOf, hp]; rfl))⟩
    · rw [upd_status, hst]; congr 1; cases c <;> rfl
    · exact own_keep s t _ ho (by rw [hp]; cases c <;> rfl)
    · show MapRel s.map a.reg _
      rw [ownerPc_other s t _ ho (by rw [hp]; rfl)]; exact hm
    · refine query_upd s t _ hq ?_
      intro d hd
      cases c <;> simp [entry] at hd <;> subst hd <;> trivial
  | ret t c r hp =>
    refine ⟨{ a with st := upd a.st t .idle }, ⟨?_, ?_, ?_, ?_⟩,
      .inl (.ret a t c r (by rw [stOf, hp]; rfl))⟩
    · rw [upd_status, hst]; rfl
    · exact own_keep s t _ ho (by rw [hp]; rfl)
    · show MapRel s.map a.reg _
      rw [ownerPc_other s t _ ho (by rw [hp]; rfl)]; exact hm
    · exact query_upd s t _ hq (by intro d hd; simp at hd)
  | addLock t n iv hp hn =>
    refine ⟨a, ⟨?_, ?_, ?_, ?_⟩, .inr ⟨rfl, rfl⟩⟩
    · show a.st = fun u => statusOf (upd s.pc t _ u)
      rw [upd_status, hst, upd_self]; rw [hp]; rfl
    · exact own_take s t _ ho hn rfl
    · simp only [ownerPc, upd_same]
      simp only [ownerPc, hn] at hm; exact hm
    · exact query_upd s t _ hq (by intro d hd; simp at hd)
  | addFind t n iv hp =>
    refine ⟨a, ⟨?_, ?_, ?_, ?_⟩, .inr ⟨rfl, rfl⟩⟩
    · show a.st = fun u => statusOf (upd s.pc t _ u)
      rw [upd_status, hst, upd_self]; rw [hp]; rfl
    · exact own_keep s t _ ho (by rw [hp]; rfl)
    · have hh : Holds (s.pc t) = true := by rw [hp]; rfl
      rw [ownerPc_mine s t ho hh, hp] at hm
      simp only [ownerPc, (ho t).1 hh, upd_same]; exact hm
    · exact query_upd s t _ hq (by intro d hd; simp at hd)
  | addErase t n iv hp =>
    refine ⟨a, ⟨?_, ?_, ?_, ?_⟩, .inr ⟨rfl, rfl⟩⟩
    · show a.st = fun u => statusOf (upd s.pc t _ u)
      rw [upd_status, hst, upd_self]; rw [hp]; rfl
    · exact own_keep s t _ ho (by rw [hp]; rfl)
    · have hh : Holds (s.pc t) = true := by rw [hp]; rfl
      rw [ownerPc_mine s t ho hh, hp] at hm
      simp only [ownerPc, (ho t).1 hh, upd_same]
      intro m v
      rw [mem_eraseName, hm m v]
    · exact query_upd s t _ hq (by intro d hd; simp at hd)
  | addInsert t n iv hp =>
    have hh : Holds (s.pc t) = true := by rw [hp]; rfl
    rw [ownerPc_mine s t ho hh, hp] at hm
    refine ⟨⟨effect (.add n iv) a.reg, upd a.st t (.done (.add n iv) none)⟩, ⟨?_, ?_, ?_, ?_⟩,
      .inl (.effect a t (.add n iv) none (by rw [stOf, hp]; rfl) rfl)⟩
    · rw [upd_status, hst]; rfl
    · exact own_keep s t _ ho (by rw [hp]; rfl)
    · simp only [ownerPc, (ho t).1 hh, upd_same]
      have hno : hasErrorNamed s.map n = false := by
        cases hb : hasErrorNamed s.map n with
        | false => rfl
        | true =>
          obtain ⟨v, hv⟩ := (named_iff _ _).1 hb
          exact absurd rfl ((hm n v).1 hv).1
      intro m v
      simp only [insertEntry, hno, Bool.false_eq_true, if_false, List.mem_cons, Prod.mk.injEq,
        effect]
      by_cases hmn : m = n
      · subst hmn
        simp only [if_true, true_and, Option.some.injEq]
        constructor
        · rintro (h | h)
          · exact h.symm
          · exact absurd rfl ((hm m v).1 h).1
        · intro h; exact .inl h.symm
      · simp only [hmn, false_and, false_or, if_false]
        rw [hm m v]; simp [hmn]
    · exact query_upd s t _ hq (by intro d hd; simp at hd)
  | addUnlock t n iv hp =>
    have hh : Holds (s.pc t) = true := by rw [hp]; rfl
    rw [ownerPc_mine s t ho hh, hp] at hm
    refine ⟨a, ⟨?_, ?_, ?_, ?_⟩, .inr ⟨rfl, rfl⟩⟩
    · show a.st = fun u => statusOf (upd s.pc t _ u)
      rw [upd_status, hst, upd_self]; rw [hp]; rfl
    · exact own_free s t _ ho hh rfl
    · exact hm
    · exact query_upd s t _ hq (by intro d hd; simp at hd)
  | remLock t ts hp hn =>
    refine ⟨a, ⟨?_, ?_, ?_, ?_⟩, .inr ⟨rfl, rfl⟩⟩
    · show a.st = fun u => statusOf (upd s.pc t _ u)
      rw [upd_status, hst, upd_self]; rw [hp]; rfl
    · exact own_take s t _ ho hn rfl
    · simp only [ownerPc, upd_same]
      simp only [ownerPc, hn] at hm
      refine ⟨by simp, fun m iv h => (hm m iv).1 h, fun m iv h => .inl ((hm m iv).2 h)⟩
    · exact query_upd s t _ hq (by intro d hd; simp at hd)
  | remErase t ts i hi hp hts =>
    have hh : Holds (s.pc t) = true := by rw [hp]; rfl
    rw [ownerPc_mine s t ho hh, hp] at hm
    refine ⟨a, ⟨hst, ho, ?_, hq⟩, .inr ⟨rfl, rfl⟩⟩
    obtain ⟨m1, m2, m3⟩ := hm
    simp only [ownerPc, (ho t).1 hh, hp]
    refine ⟨?_, ?_, ?_⟩
    · intro e he
      rw [List.eraseIdx_eq_take_drop_succ, List.take_left' (by simp; omega)] at he
      exact m1 e he
    · intro m iv h
      exact m2 m iv (List.mem_of_mem_eraseIdx h)
    · intro m iv h
      rcases m3 m iv h with h' | h'
      · obtain ⟨k, hk, ek⟩ := List.mem_iff_getElem.1 h'
        by_cases hki : k = i
        · subst hki; right; rw [ek] at hts; exact hts
        · left
          rw [List.mem_eraseIdx_iff_getElem]
          exact ⟨k, hk, hki, ek⟩
      · exact .inr h'
  | remNext t ts i hi hp hts =>
    have hh : Holds (s.pc t) = true := by rw [hp]; rfl
    rw [ownerPc_mine s t ho hh, hp] at hm
    obtain ⟨m1, m2, m3⟩ := hm
    refine ⟨a, ⟨?_, ?_, ?_, ?_⟩, .inr ⟨rfl, rfl⟩⟩
    · show a.st = fun u => statusOf (upd s.pc t _ u)
      rw [upd_status, hst, upd_self]; rw [hp]; rfl
    · exact own_keep s t _ ho (by rw [hp]; rfl)
    · simp only [ownerPc, (ho t).1 hh, upd_same]
      refine ⟨?_, m2, m3⟩
      intro e he
      rw [List.take_succ_eq_append_getElem hi] at he
      rcases List.mem_append.1 he with he | he
      · exact m1 e he
      · rw [List.mem_singleton.1 he]; exact hts
    · exact query_upd s t _ hq (by intro d hd; simp at hd)
  | remEnd t ts i hp hi =>
    have hh : Holds (s.pc t) = true := by rw [hp]; rfl
    rw [ownerPc_mine s t ho hh, hp] at hm
    obtain ⟨m1, m2, m3⟩ := hm
    rw [List.take_of_length_le hi] at m1
    refine ⟨⟨effect (.removeUntil ts) a.reg, upd a.st t (.done (.removeUntil ts) none)⟩,
      ⟨?_, ?_, ?_, ?_⟩, .inl (.effect a t (.removeUntil ts) none (by rw [stOf, hp]; rfl) rfl)⟩
    · rw [upd_status, hst]; rfl
    · exact own_keep s t _ ho (by rw [hp]; rfl)
    · simp only [ownerPc, (ho t).1 hh, upd_same]
      intro m v
      simp only [effect, Option.filter_eq_some_iff, decide_eq_true_eq]
      constructor
      · intro h
        have := m1 _ h
        exact ⟨m2 m v h, by simp only at this; omega⟩
      · rintro ⟨h, hle⟩
        rcases m3 m v h with h' | h'
        · exact h'
        · omega
    · exact query_upd s t _ hq (by intro d hd; simp at hd)
  | remUnlock t ts hp =>
    have hh : Holds (s.pc t) = true := by rw [hp]; rfl
    rw [ownerPc_mine s t ho hh, hp] at hm
    refine ⟨a, ⟨?_, ?_, ?_, ?_⟩, .inr ⟨rfl, rfl⟩⟩
    · show a.st = fun u => statusOf (upd s.pc t _ u)
      rw [upd_status, hst, upd_self]; rw [hp]; rfl
    · exact own_free s t _ ho hh rfl
    · exact hm
    · exact query_upd s t _ hq (by intro d hd; simp at hd)
  | hasRead t c hlk hp =>
    have hqc : IsQuery c := hq t c (.inl hp)
    have hnh : Holds (s.pc t) = false := by rw [hp]; rfl
    have hcalled : a.st t = .called c := by rw [stOf, hp]; rfl
    have hrel : Rel { s with pc := upd s.pc t (.done c (some (answer s.map c))) }
        { a with st := upd a.st t (.done c (some (answer s.map c))) } := by
      refine ⟨?_, ?_, ?_, ?_⟩
      · rw [upd_status, hst]; rfl
      · exact own_keep s t _ ho (by rw [hp]; rfl)
      · show MapRel s.map a.reg _
        rw [ownerPc_other s t _ ho hnh]; exact hm
      · exact query_upd s t _ hq (by intro d hd; simp at hd)
    refine ⟨_, hrel, .inl ?_⟩
    -- the two cases: the map equals the contents, or a writer is at work
    have key : (∀ m iv, (m, iv) ∈ s.map → a.reg m = some iv) ∧
        (∀ m iv, a.reg m = some iv → (m, iv) ∈ s.map ∨ InDoubt a m) := by
      cases hop : ownerPc s with
      | add3 n v =>
        rw [hop] at hm
        refine ⟨fun m iv h => ((hm m iv).1 h).2, ?_⟩
        intro m iv h
        by_cases e : m = n
        · right; left
          cases how : s.owner with
          | none => simp [ownerPc, how] at hop
          | some u =>
            simp only [ownerPc, how] at hop
            exact ⟨u, v, by rw [stOf, hop, e]; rfl⟩
        · exact .inl ((hm m iv).2 ⟨e, h⟩)
      | rem1 ts i =>
        rw [hop] at hm
        refine ⟨hm.2.1, ?_⟩
        intro m iv h
        rcases hm.2.2 m iv h with h' | h'
        · exact .inl h'
        · right; right
          cases how : s.owner with
          | none => simp [ownerPc, how] at hop
          | some u =>
            simp only [ownerPc, how] at hop
            exact ⟨u, ts, iv, by rw [stOf, hop]; rfl, h, h'⟩
      | _ =>
        rw [hop] at hm
        exact ⟨fun m iv h => (hm m iv).1 h, fun m iv h => .inl ((hm m iv).2 h)⟩
    obtain ⟨k1, k2⟩ := key
    cases hb : answer s.map c with
    | false =>
      refine .missed a t c (by simp [hlk]) hcalled hqc ?_
      intro n hn
      cases hrn : a.reg n with
      | none => exact .inl rfl
      | some iv =>
        right
        rcases k2 n iv hrn with h | h
        · exfalso
          cases c with
          | add => cases hqc
          | removeUntil => cases hqc
          | has m =>
            have hn : n = m := hn
            subst hn
            rw [answer, (named_iff _ _).2 ⟨iv, h⟩] at hb; cases hb
          | hasAny =>
            rw [show answer s.map .hasAny = hasError s.map from rfl,
              (any_iff _).2 ⟨n, iv, h⟩] at hb; cases hb
        · exact h
    | true =>
      have := SpStep.effect (weak := !lk) a t c (some true) hcalled (by
        cases c with
        | add => cases hqc
        | removeUntil => cases hqc
        | has m =>
          obtain ⟨iv, h⟩ := (named_iff _ _).1 hb
          exact ⟨true, rfl, by simp [k1 _ _ h]⟩
        | hasAny =>
          obtain ⟨n, iv, h⟩ := (any_iff _).1 hb
          exact ⟨true, rfl, by simp only [true_iff]; exact ⟨n, iv, k1 _ _ h⟩⟩)
      rw [effect_query c hqc] at this
      exact this
  | hasLock t c hlk hp hn =>
    refine ⟨a, ⟨?_, ?_, ?_, ?_⟩, .inr ⟨rfl, rfl⟩⟩
    · show a.st = fun u => statusOf (upd s.pc t _ u)
      rw [upd_status, hst, upd_self]; rw [hp]; rfl
    · exact own_take s t _ ho hn rfl
    · simp only [ownerPc, upd_same]
      simp only [ownerPc, hn] at hm; exact hm
    · refine query_upd s t _ hq ?_
      intro d hd; simp at hd; subst hd; exact hq t c (.inl hp)
  | hasReadLocked t c hp =>
    have hh : Holds (s.pc t) = true := by rw [hp]; rfl
    have hqc : IsQuery c := hq t c (.inr hp)
    rw [ownerPc_mine s t ho hh, hp] at hm
    refine ⟨⟨effect c a.reg, upd a.st t (.done c (some (answer s.map c)))⟩, ⟨?_, ?_, ?_, ?_⟩,
      .inl (.effect a t c _ (by rw [stOf, hp]; rfl) (answer_right _ _ _ hqc hm))⟩
    · rw [upd_status, hst]; rfl
    · exact own_keep s t _ ho (by rw [hp]; rfl)
    · simp only [ownerPc, (ho t).1 hh, upd_same, effect_query c hqc]; exact hm
    · exact query_upd s t _ hq (by intro d hd; simp at hd)
  | hasUnlock t c r hp =>
    have hh : Holds (s.pc t) = true := by rw [hp]; rfl
    rw [ownerPc_mine s t ho hh, hp] at hm
    refine ⟨a, ⟨?_, ?_, ?_, ?_⟩, .inr ⟨rfl, rfl⟩⟩
    · show a.st = fun u => statusOf (upd s.pc t _ u)
      rw [upd_status, hst, upd_self]; rw [hp]; rfl
    · exact own_free s t _ ho hh rfl
    · exact hm
    · exact query_upd s t _ hq (by intro d hd; simp at hd)

theorem simulate_trace (lk : Bool) (h : List Ev) (s : St) (ht : Trace (Step lk) fresh h s) :
    ∃ a, Rel s a ∧ Trace (SpStep (!lk)) spFresh h a := by
  induction ht with
  | nil => exact ⟨spFresh, rel_fresh, .nil _⟩
  | vis _ hs ih =>
    obtain ⟨a, hr, ht⟩ := ih
    obtain ⟨a', hr', h | ⟨h, -⟩⟩ := simulate lk _ _ _ a hr hs
    · exact ⟨a', hr', .vis ht h⟩
    · cases h
  | tau _ hs ih =>
    obtain ⟨a, hr, ht⟩ := ih
    obtain ⟨a', hr', h | ⟨-, h⟩⟩ := simulate lk _ _ _ a hr hs
    · exact ⟨a', hr', .tau ht h⟩
    · subst h; exact ⟨a', hr', ht⟩

/-! ### Theorems -/

/-- **C87 (partial)** For any number of threads and every interleaving, the calls and returns seen
on the registry are those of an indivisible registry, except that a query may miss an entry while
another call is replacing or removing it. Missing: the exception, which does occur (below). -/
theorem C87_concurrent_partial (h : List Ev) (s : St) (ht : Trace (Step false) fresh h s) :
    WeaklyLinearizable h := by
  obtain ⟨a, -, ht⟩ := simulate_trace false h s ht
  exact ⟨a, ht⟩

/-- If the queries took the mutex as well, every history would be linearizable. -/
theorem C87_locked_queries (h : List Ev) (s : St) (ht : Trace (Step true) fresh h s) :
    Linearizable h := by
  obtain ⟨a, -, ht⟩ := simulate_trace true h s ht
  exact ⟨a, ht⟩

/-- Without queries in the history the exception does not arise. -/
theorem weak_no_query (h : List Ev) (a : Sp) (ht : Trace (SpStep true) spFresh h a)
    (hnq : ∀ t c, Ev.call t c ∈ h → ¬ IsQuery c) :
    Trace (SpStep false) spFresh h a ∧ ∀ t c, a.st t = .called c → ¬ IsQuery c := by
  induction ht with
  | nil => exact ⟨.nil _, by intro t c h; cases h⟩
  | vis _ hs ih =>
    obtain ⟨i1, i2⟩ := ih (fun t c h => hnq t c (List.mem_append_left _ h))
    cases hs with
    | call t c hi =>
      refine ⟨.vis (i1) (.call _ t c hi), ?_⟩
      intro u d hd
      simp only [upd] at hd
      split at hd
      · injection hd with hd; subst hd; exact hnq t c (by simp)
      · exact i2 u d hd
    | ret t c r hi =>
      refine ⟨.vis (i1) (.ret _ t c r hi), ?_⟩
      intro u d hd
      simp only [upd] at hd
      split at hd
      · cases hd
      · exact i2 u d hd
  | tau _ hs ih =>
    obtain ⟨i1, i2⟩ := ih hnq
    cases hs with
    | effect t c r hi hr =>
      refine ⟨.tau (i1) (.effect _ t c r hi hr), ?_⟩
      intro u d hd
      simp only [upd] at hd
      split at hd
      · cases hd
      · exact i2 u d hd
    | missed t c _ hi hq _ => exact absurd hq (i2 t c hi)

/-- Adding and removing errors concurrently is indivisible in the code as it is: every history of
`add_error` and `remove_errors_until` calls is linearizable. -/
theorem C87_writers_linearizable (h : List Ev) (s : St) (ht : Trace (Step false) fresh h s)
    (hnq : ∀ t c, Ev.call t c ∈ h → ¬ IsQuery c) : Linearizable h := by
  obtain ⟨a, -, ht⟩ := simulate_trace false h s ht
  exact ⟨a, (weak_no_query h a ht hnq).1⟩

/-- Whoever changes the map is one of the threads counted as writing, and has the mutex. -/
theorem C87_writing (lk : Bool) (h : List Ev) (s s' : St) (e : Option Ev) (ht : Trace (Step lk) fresh h s) (st : Step lk s e s')
    (hm : s'.map ≠ s.map) : ∃ t, Writes (s.pc t) = true ∧ s.owner = some t := by
  obtain ⟨a, ⟨-, ho, -, -⟩, -⟩ := simulate_trace lk h s ht
  have own : ∀ t, Writes (s.pc t) = true → ∃ t, Writes (s.pc t) = true ∧ s.owner = some t := fun t hw =>
    ⟨t, hw, (ho t).1 (by generalize s.pc t = p at hw; cases p <;> simp_all [Writes, Holds])⟩
  cases st with
  | addErase t n iv h1 => exact own t (by rw [h1]; rfl)
  | addInsert t n iv h1 => exact own t (by rw [h1]; rfl)
  | remErase t ts i hi h1 h2 => exact own t (by rw [h1]; rfl)
  | _ => exact absurd rfl hm

/-- No two threads of the code are ever both about to access the map with one of them writing,
unless the other is in a query. With queries under the mutex there is no data race at all. -/
theorem C87_races (lk : Bool) (h : List Ev) (s : St) (ht : Trace (Step lk) fresh h s) :
    (∀ t u, t ≠ u → Writes (s.pc t) = true → Accesses (s.pc u) = true →
      ∃ c, s.pc u = .has0 c) ∧
    (lk = true → ¬ Racing lk s) := by
  obtain ⟨a, ⟨-, ho, -, -⟩, -⟩ := simulate_trace lk h s ht
  have main : ∀ t u, t ≠ u → Writes (s.pc t) = true → Accesses (s.pc u) = true →
      ∃ c, s.pc u = .has0 c := by
    intro t u htu hw ha
    have h1 : s.owner = some t := (ho t).1 (by
      generalize s.pc t = p at hw; cases p <;> simp_all [Writes, Holds])
    have h2 : ¬ Holds (s.pc u) = true := by
      intro hc
      have := (ho u).1 hc
      rw [h1] at this; injection this with this; exact htu this
    generalize hp : s.pc u = p at h2 ha
    cases p <;> simp_all [Accesses, Holds]
  refine ⟨main, ?_⟩
  rintro hl ⟨t, u, htu, hw, ha, hno⟩
  obtain ⟨c, hc⟩ := main t u htu hw ha
  exact hno hl c hc

/-- In an indivisible registry: once an error has been added and is never removed, a query called
afterwards finds it. -/
theorem spec_no_false_negative (n : String) (h1 h2 : List Ev) (a : Sp)
    (ht : Trace (SpStep false) spFresh (h1 ++ h2) a)
    (hadd : ∃ t iv, Ev.ret t (.add n iv) none ∈ h1)
    (hrem : ∀ t ts, Ev.call t (.removeUntil ts) ∉ h1 ++ h2)
    (hq : ∀ t, Ev.call t (.has n) ∉ h1) :
    ∀ t, Ev.ret t (.has n) (some false) ∉ h2 := by
  -- invariant of all traces of the specification without removals
  have inv : ∀ (h : List Ev) (a : Sp), Trace (SpStep false) spFresh h a →
      (∀ t ts, Ev.call t (.removeUntil ts) ∉ h) →
      (∀ t ts, a.st t ≠ .called (.removeUntil ts)) ∧
      (∀ t iv r, a.st t = .done (.add n iv) r → a.reg n ≠ none) ∧
      ((∃ t iv, Ev.ret t (.add n iv) none ∈ h) → a.reg n ≠ none) ∧
      ((∀ t, Ev.call t (.has n) ∉ h) → ∀ t r, a.st t ≠ .called (.has n) ∧
        a.st t ≠ .done (.has n) r) := by
    intro h a ht
    induction ht with
    | nil =>
      intro _
      refine ⟨?_, ?_, ?_, ?_⟩
      · intro t ts h; cases h
      · intro t iv r h; cases h
      · rintro ⟨t, iv, h⟩; cases h
      · intro _ t r; exact ⟨(by intro h; cases h), (by intro h; cases h)⟩
    | vis _ hs ih =>
      intro hr
      obtain ⟨i1, i2, i3, i4⟩ := ih (fun t ts h => hr t ts (List.mem_append_left _ h))
      cases hs with
      | call t c hi =>
        refine ⟨?_, ?_, ?_, ?_⟩
        · intro u ts hd
          simp only [upd] at hd
          split at hd
          · injection hd with hd; subst hd; exact hr t ts (by simp)
          · exact i1 u ts hd
        · intro u iv r hd
          simp only [upd] at hd
          split at hd
          · cases hd
          · exact i2 u iv r hd
        · rintro ⟨u, iv, hu⟩
          exact i3 ⟨u, iv, by simpa using hu⟩
        · intro hc u r
          have := i4 (fun t h => hc t (List.mem_append_left _ h)) u r
          simp only [upd]
          split
          · refine ⟨?_, (by intro h; cases h)⟩
            intro h; injection h with h; subst h; exact hc t (by simp)
          · exact this
      | ret t c r hi =>
        refine ⟨?_, ?_, ?_, ?_⟩
        · intro u ts hd
          simp only [upd] at hd
          split at hd
          · cases hd
          · exact i1 u ts hd
        · intro u iv r hd
          simp only [upd] at hd
          split at hd
          · cases hd
          · exact i2 u iv r hd
        · rintro ⟨u, iv, hu⟩
          rcases List.mem_append.1 hu with hu | hu
          · exact i3 ⟨u, iv, hu⟩
          · simp only [List.mem_singleton, Ev.ret.injEq] at hu
            obtain ⟨rfl, rfl, rfl⟩ := hu
            exact i2 _ iv none hi
        · intro hc u r
          have := i4 (fun t h => hc t (List.mem_append_left _ h)) u r
          simp only [upd]
          split
          · exact ⟨(by intro h; cases h), (by intro h; cases h)⟩
          · exact this
    | tau _ hs ih =>
      intro hr
      obtain ⟨i1, i2, i3, i4⟩ := ih hr
      cases hs with
      | effect t c r hi hres =>
        have keep : ∀ m : Contents, m n ≠ none → effect c m n ≠ none := by
          intro m hm
          cases c with
          | add k iv =>
            simp only [effect]; split
            · simp
            · exact hm
          | removeUntil ts => exact absurd hi (i1 t ts)
          | has k => exact hm
          | hasAny => exact hm
        refine ⟨?_, ?_, fun h => keep _ (i3 h), ?_⟩
        · intro u ts hd
          simp only [upd] at hd
          split at hd
          · cases hd
          · exact i1 u ts hd
        · intro u iv r' hd
          simp only [upd] at hd
          split at hd
          · injection hd with hd _; subst hd; simp [effect]
          · exact keep _ (i2 u iv r' hd)
        · intro hc u r'
          have := i4 hc u r'
          simp only [upd]
          split
          · refine ⟨(by intro h; cases h), ?_⟩
            intro h; injection h with h _; subst h
            exact (i4 hc t none).1 hi
          · exact this
      | missed t c hw => cases hw
  -- split the trace
  have split : ∀ (h : List Ev) (a : Sp), Trace (SpStep false) spFresh h a →
      (∀ t ts, Ev.call t (.removeUntil ts) ∉ h) → ∀ h2, h = h1 ++ h2 →
      a.reg n ≠ none ∧ (∀ t, a.st t ≠ .done (.has n) (some false)) ∧
        (∀ t, Ev.ret t (.has n) (some false) ∉ h2) := by
    intro h a ht
    have ht0 := ht
    induction ht with
    | nil =>
      intro _ h2 e
      obtain ⟨e1, -⟩ := List.append_eq_nil_iff.1 e.symm
      obtain ⟨t, iv, hm⟩ := hadd
      rw [e1] at hm; cases hm
    | @vis s'' s''' h e htr hs ih =>
      intro hr h2 eh
      have hreg := (inv _ _ ht0 hr).2.2.1 (by
        obtain ⟨t, iv, hm⟩ := hadd; exact ⟨t, iv, by rw [eh]; exact List.mem_append_left _ hm⟩)
      rcases List.eq_nil_or_concat h2 with hnil | ⟨h2', e', rfl⟩
      · subst hnil
        refine ⟨hreg, ?_, by simp⟩
        intro t hd
        rw [List.append_nil] at eh
        exact ((inv _ _ ht0 hr).2.2.2 (by rw [eh]; exact hq) t (some false)).2 hd
      · rw [List.concat_eq_append, ← List.append_assoc] at eh
        obtain ⟨eh1, eh2⟩ := List.append_inj' eh rfl
        injection eh2 with eh2; subst eh2
        obtain ⟨j1, j2, j3⟩ := ih htr (fun t ts h => hr t ts (List.mem_append_left _ h)) h2' eh1
        refine ⟨hreg, ?_, ?_⟩
        · intro u hd
          cases hs with
          | call t c hi =>
            simp only [upd] at hd
            split at hd
            · cases hd
            · exact j2 u hd
          | ret t c r hi =>
            simp only [upd] at hd
            split at hd
            · cases hd
            · exact j2 u hd
        · intro u hu
          rw [List.concat_eq_append] at hu
          rcases List.mem_append.1 hu with hu | hu
          · exact j3 u hu
          · rw [← List.mem_singleton.1 hu] at hs
            cases hs with
            | ret _ _ _ hi => exact j2 u hi
    | @tau s'' s''' h htr hs ih =>
      intro hr h2 eh
      have hreg := (inv _ _ ht0 hr).2.2.1 (by
        obtain ⟨t, iv, hm⟩ := hadd; exact ⟨t, iv, by rw [eh]; exact List.mem_append_left _ hm⟩)
      obtain ⟨j1, j2, j3⟩ := ih htr hr h2 eh
      refine ⟨hreg, ?_, j3⟩
      intro u hd
      cases hs with
      | effect t c r hi hres =>
        simp only [upd] at hd
        split at hd
        · injection hd with e1 e2
          subst e1; subst e2
          obtain ⟨b, hb, hb'⟩ := hres
          injection hb with hb; subst hb
          refine j1 ?_
          cases hn : s''.reg n with
          | none => rfl
          | some iv => have := hb'.2 ⟨iv, hn⟩; cases this
        · exact j2 u hd
      | missed t c hw => cases hw
  exact (split _ a ht hrem h2 rfl).2.2

/-- With queries under the mutex: an error that has been added and is never removed is found by
every query called afterwards. -/
theorem C87_locked_no_false_negative (n : String) (h1 h2 : List Ev) (s : St)
    (ht : Trace (Step true) fresh (h1 ++ h2) s)
    (hadd : ∃ t iv, Ev.ret t (.add n iv) none ∈ h1)
    (hrem : ∀ t ts, Ev.call t (.removeUntil ts) ∉ h1 ++ h2)
    (hq : ∀ t, Ev.call t (.has n) ∉ h1) :
    ∀ t, Ev.ret t (.has n) (some false) ∉ h2 := by
  obtain ⟨a, ha⟩ := C87_locked_queries _ s ht
  exact spec_no_false_negative n h1 h2 a ha hadd hrem hq

/-! ### Counterexample: the registered error is not seen while it is being replaced -/

/-- An error name. -/
def missing : String := "MISSING_FRAMES"

/-- Thread 0 (the consumer) adds a gap and later a second one; thread 1 (a request) asks. -/
def lostHistory : List Ev :=
  [.call 0 (.add missing ⟨100, 200⟩), .ret 0 (.add missing ⟨100, 200⟩) none,
   .call 0 (.add missing ⟨500, 600⟩), .call 1 (.has missing),
   .ret 1 (.has missing) (some false)]

/-- The machine after the second `erase` while thread 1 waits to read. -/
def lostState : St :=
  ⟨[], some 0, upd (upd (fun _ => .idle) 0 (.add3 missing ⟨500, 600⟩)) 1 (.has0 (.has missing))⟩

theorem upd_upd {β : Type} (f : Nat → β) (t : Nat) (b b' : β) :
    upd (upd f t b) t b' = upd f t b' := by
  funext u; simp only [upd]; split <;> rfl

theorem upd_comm {β : Type} (f : Nat → β) (t u : Nat) (b b' : β) (h : t ≠ u) :
    upd (upd f t b) u b' = upd (upd f u b') t b := by
  funext w; simp only [upd]; split
  · next e => subst e; simp [Ne.symm h]
  · rfl

theorem lost_prefix : Trace (Step false) fresh
    [.call 0 (.add missing ⟨100, 200⟩), .ret 0 (.add missing ⟨100, 200⟩) none,
     .call 0 (.add missing ⟨500, 600⟩), .call 1 (.has missing)] lostState := by
  let iv : Interval := ⟨100, 200⟩
  let jv : Interval := ⟨500, 600⟩
  have t1 := Trace.vis (Trace.nil (step := Step false) fresh) (.call _ 0 (.add missing iv) rfl)
  have t2 := Trace.tau t1 (.addLock _ 0 missing iv rfl rfl)
  have t3 := Trace.tau t2 (.addFind _ 0 missing iv rfl)
  have t4 := Trace.tau t3 (.addErase _ 0 missing iv rfl)
  have t5 := Trace.tau t4 (.addInsert _ 0 missing iv rfl)
  have t6 := Trace.tau t5 (.addUnlock _ 0 missing iv rfl)
  have t7 := Trace.vis t6 (.ret _ 0 (.add missing iv) none rfl)
  have t8 := Trace.vis t7 (.call _ 0 (.add missing jv) rfl)
  have t9 := Trace.tau t8 (.addLock _ 0 missing jv rfl rfl)
  have t10 := Trace.tau t9 (.addFind _ 0 missing jv rfl)
  have t11 := Trace.tau t10 (.addErase _ 0 missing jv rfl)
  have t12 := Trace.vis t11 (.call _ 1 (.has missing) rfl)
  simp only [upd_upd] at t12
  exact t12

/-- **C87 counterexample** A query misses an error that was registered before the query was called
and never removed: it reads between the `erase` and the `insert` of a second `add_error`. The
history is not linearizable, so the claim without the exception is false of the code. -/
theorem C87_query_misses_counterexample :
    (∃ s, Trace (Step false) fresh lostHistory s) ∧ ¬ Linearizable lostHistory := by
  constructor
  · have t13 := Trace.tau lost_prefix (.hasRead _ 1 (.has missing) rfl rfl)
    have t14 := Trace.vis t13 (.ret _ 1 (.has missing) (some false) rfl)
    exact ⟨_, t14⟩
  · rintro ⟨a, ha⟩
    refine spec_no_false_negative missing
      [.call 0 (.add missing ⟨100, 200⟩), .ret 0 (.add missing ⟨100, 200⟩) none]
      [.call 0 (.add missing ⟨500, 600⟩), .call 1 (.has missing),
       .ret 1 (.has missing) (some false)] a ha ⟨0, ⟨100, 200⟩, by simp⟩ ?_ ?_ 1 (by simp)
    · intro t ts h; simp at h
    · intro t h; simp at h

/-- **C87 counterexample** At that moment the query and the writer access the map without
synchronisation: a data race. -/
theorem C87_race_counterexample :
    ∃ h s, Trace (Step false) fresh h s ∧ Racing false s :=
  ⟨_, _, lost_prefix, 0, 1, by decide, rfl, rfl, by intro h; cases h⟩

/-! ### Cases meeting the hypotheses -/

/-- A run with two writers at once: the second has called but waits for the mutex. -/
example : ∃ s, Trace (Step false) fresh
    [.call 0 (.add missing ⟨100, 200⟩), .call 1 (.removeUntil 300),
     .ret 0 (.add missing ⟨100, 200⟩) none] s ∧ s.pc 1 = .rem0 300 := by
  have t1 := Trace.vis (Trace.nil (step := Step false) fresh)
    (.call _ 0 (.add missing ⟨100, 200⟩) rfl)
  have t2 := Trace.tau t1 (.addLock _ 0 missing ⟨100, 200⟩ rfl rfl)
  have t3 := Trace.vis t2 (.call _ 1 (.removeUntil 300) rfl)
  have t4 := Trace.tau t3 (.addFind _ 0 missing ⟨100, 200⟩ rfl)
  have t5 := Trace.tau t4 (.addErase _ 0 missing ⟨100, 200⟩ rfl)
  have t6 := Trace.tau t5 (.addInsert _ 0 missing ⟨100, 200⟩ rfl)
  have t7 := Trace.tau t6 (.addUnlock _ 0 missing ⟨100, 200⟩ rfl)
  have t8 := Trace.vis t7 (.ret _ 0 (.add missing ⟨100, 200⟩) none rfl)
  exact ⟨_, t8, rfl⟩

/-- A run with a locked query after an added error. -/
example : ∃ s, Trace (Step true) fresh
    ([.call 0 (.add missing ⟨100, 200⟩), .ret 0 (.add missing ⟨100, 200⟩) none] ++
     [.call 1 (.has missing), .ret 1 (.has missing) (some true)]) s := by
  have t1 := Trace.vis (Trace.nil (step := Step true) fresh)
    (.call _ 0 (.add missing ⟨100, 200⟩) rfl)
  have t2 := Trace.tau t1 (.addLock _ 0 missing ⟨100, 200⟩ rfl rfl)
  have t4 := Trace.tau t2 (.addFind _ 0 missing ⟨100, 200⟩ rfl)
  have t5 := Trace.tau t4 (.addErase _ 0 missing ⟨100, 200⟩ rfl)
  have t6 := Trace.tau t5 (.addInsert _ 0 missing ⟨100, 200⟩ rfl)
  have t7 := Trace.tau t6 (.addUnlock _ 0 missing ⟨100, 200⟩ rfl)
  have t8 := Trace.vis t7 (.ret _ 0 (.add missing ⟨100, 200⟩) none rfl)
  have t9 := Trace.vis t8 (.call _ 1 (.has missing) rfl)
  have t10 := Trace.tau t9 (.hasLock _ 1 (.has missing) rfl rfl rfl)
  have t11 := Trace.tau t10 (.hasReadLocked _ 1 (.has missing) rfl)
  have t12 := Trace.tau t11 (.hasUnlock _ 1 (.has missing) true rfl)
  have t13 := Trace.vis t12 (.ret _ 1 (.has missing) (some true) rfl)
  exact ⟨_, t13⟩

end Verif.RegConc
