import Verif.CleanupModel
import Verif.RingLemmas
import Verif.DataReqProps
import Mathlib.Tactic.Linarith
import Mathlib.Algebra.Order.Floor.Semiring
import Mathlib.Data.Rat.Floor
/- Properties C21 and C22: cleanup of the latency buffer. -/
namespace Verif.Cleanup
open Verif.Ring Verif.Registry
variable {P : Type}

theorem frontTs_cons {ts : P → Nat} {q : Ring.Ring P} {a : P} {l : List P} (h : Repr q (a :: l)) :
    frontTs ts q = .ok (ts a) := by
  simp [frontTs, DataReq.front_deref h (a := a) (by simp)]

theorem frontTs_nil {ts : P → Nat} {q : Ring.Ring P} (h : Repr q []) :
    frontTs ts q = .ub .nullDeref := by
  have := h.rd_eq_wr.2 rfl
  simp [frontTs, Ring.front, this, Ring.derefPtr]

/-- The pop loop removes `k` oldest elements, all before `next`, and stops at `toPop` or at an
element not before `next`; it fails only by running off an emptied buffer. -/
theorem popLoop_spec (ts : P → Nat) (next n : Nat) (q : Ring.Ring P) (l : List P) (h : Repr q l) :
    (l.length < n ∧ (∀ x ∈ l, ts x < next) ∧ popLoop ts next n q = .ub .nullDeref) ∨
    (∃ k q', k ≤ n ∧ k ≤ l.length ∧ popLoop ts next n q = .ok (q', k) ∧ Repr q' (l.drop k) ∧
      q'.size = q.size ∧ q'.overflow = q.overflow ∧ (∀ x ∈ l.take k, ts x < next) ∧
      (k = n ∨ ∃ a, l[k]? = some a ∧ next ≤ ts a)) := by
  induction n generalizing q l with
  | zero => right; exact ⟨0, q, by omega, by omega, rfl, by simpa using h, rfl, rfl, by simp, Or.inl rfl⟩
  | succ n ih =>
    cases l with
    | nil => left; exact ⟨by simp, by simp, by simp [popLoop, frontTs_nil h]⟩
    | cons a l =>
      by_cases ha : ts a < next
      · obtain ⟨q1, e1, r1, s1, o1⟩ := pop_ok h 1 (by simp)
        have r1' : Repr q1 l := by simpa using r1
        rcases ih q1 l r1' with ⟨c1, c2, c3⟩ | ⟨k, q', c0, c1, c2, c3, c4, c5, c6, c7⟩
        · left
          refine ⟨by simp; omega, ?_, ?_⟩
          · intro x hx
            rcases List.mem_cons.1 hx with rfl | hx
            · exact ha
            · exact c2 x hx
          · simp [popLoop, frontTs_cons h, ha, e1, c3]
        · right
          refine ⟨k + 1, q', by omega, by simp; omega, ?_, by simpa using c3, by omega, by omega, ?_, ?_⟩
          · simp [popLoop, frontTs_cons h, ha, e1, c2]
          · intro x hx
            simp at hx
            rcases hx with rfl | hx
            · exact ha
            · exact c6 x hx
          · rcases c7 with rfl | ⟨b, hb, hn⟩
            · left; rfl
            · right; exact ⟨b, by simpa using hb, hn⟩
      · right
        refine ⟨0, q, by omega, by omega, ?_, by simpa using h, rfl, rfl, by simp, Or.inr ⟨a, by simp, by omega⟩⟩
        simp [popLoop, frontTs_cons h, ha]

/-- **C21** For every buffer contents, limit, number to pop and recording position: a cleanup that
completes leaves the buffer unchanged if its occupancy does not exceed the limit; otherwise it
removes a prefix of the oldest elements only, no more than `toPop`, none of them at or after
the next timestamp to record; and it stops early only at such an element. Expired errors are
removed up to the new oldest element. -/
theorem C21_cleanup_prefix (ts : P → Nat) (limit toPop next : Nat) (q : Ring.Ring P) (l : List P)
    (h : Repr q l) (reg : Reg) (r : Result P)
    (hr : cleanup ts limit toPop next q reg = .ok r) :
    Repr r.q (l.drop r.popped) ∧ r.popped ≤ toPop ∧ r.popped ≤ l.length ∧
    (l.length ≤ limit → r.popped = 0 ∧ r.reg = reg) ∧
    (∀ x ∈ l.take r.popped, ts x < next) ∧
    (limit < l.length → r.popped = toPop ∨ ∃ a, l[r.popped]? = some a ∧ next ≤ ts a) ∧
    (limit < l.length → ∃ a, l[r.popped]? = some a ∧ r.reg = removeErrorsUntil reg (ts a)) ∧
    r.q.overflow = q.overflow ∧ r.q.size = q.size := by
  have hocc := h.occ
  unfold cleanup at hr
  by_cases hl : q.occupancy > limit
  · simp only [hl, if_true] at hr
    rcases popLoop_spec ts next toPop q l h with ⟨-, -, e⟩ | ⟨k, q', c0, c1, c2, c3, c4, c5, c6, c7⟩
    · simp [e] at hr
    · simp only [c2, Outcome.bind_ok] at hr
      cases hd : l.drop k with
      | nil => rw [hd] at c3; simp [frontTs_nil c3] at hr
      | cons a rest =>
        rw [hd] at c3
        simp only [frontTs_cons c3, Outcome.bind_ok] at hr
        injection hr with hr; subst hr
        have hka : l[k]? = some a := by
          have := congrArg List.head? hd
          rw [List.head?_drop] at this; simpa using this
        refine ⟨by rw [hd]; exact c3, c0, c1, by omega, c6, fun _ => c7, fun _ => ⟨a, hka, rfl⟩, c5, c4⟩
  · simp only [hl, if_false] at hr
    injection hr with hr; subst hr
    exact ⟨by simpa using h, Nat.zero_le _, Nat.zero_le _, by simp, by simp, by omega, by omega, rfl, rfl⟩

/-- Non-vacuity for C21: three stored, limit 1, two to pop, recording position after the first. -/
example : ∃ r, cleanup id 1 2 1300 (Search.demo 1000 1300 2500) [] = .ok r ∧ r.popped = 1 :=
  ⟨_, rfl, rfl⟩

/-- **C22 (exact condition)** A cleanup runs into undefined behaviour (dereference of the null front of
an emptied buffer) iff the occupancy exceeds the limit, the number to pop is at least the
occupancy, and every stored element is before the next timestamp to record (always so when no
recording is active). Otherwise it completes. -/
theorem C22_ub_iff (ts : P → Nat) (limit toPop next : Nat) (q : Ring.Ring P) (l : List P) (h : Repr q l)
    (reg : Reg) :
    ((cleanup ts limit toPop next q reg).IsUB ↔
      limit < l.length ∧ l.length ≤ toPop ∧ ∀ x ∈ l, ts x < next) ∧
    ((cleanup ts limit toPop next q reg).IsUB ∨ (cleanup ts limit toPop next q reg).IsOk) := by
  have hocc := h.occ
  unfold cleanup
  by_cases hl : q.occupancy > limit
  · simp only [hl, if_true]
    rcases popLoop_spec ts next toPop q l h with ⟨c1, c2, e⟩ | ⟨k, q', c0, c1, c2, c3, c4, c5, c6, c7⟩
    · simp only [e, Outcome.bind_ub]
      refine ⟨⟨fun _ => ⟨by omega, by omega, c2⟩, fun _ => ⟨_, rfl⟩⟩, Or.inl ⟨_, rfl⟩⟩
    · simp only [c2, Outcome.bind_ok]
      cases hd : l.drop k with
      | nil =>
        rw [hd] at c3
        simp only [frontTs_nil c3, Outcome.bind_ub]
        have hk : k = l.length := by simp at hd; omega
        refine ⟨⟨fun _ => ⟨by omega, by omega, ?_⟩, fun _ => ⟨_, rfl⟩⟩, Or.inl ⟨_, rfl⟩⟩
        rw [hk, List.take_length] at c6; exact c6
      | cons a rest =>
        rw [hd] at c3
        simp only [frontTs_cons c3, Outcome.bind_ok]
        have hka : l[k]? = some a := by
          have := congrArg List.head? hd
          rw [List.head?_drop] at this; simpa using this
        have hlt := Search.getElem?_lt hka
        refine ⟨⟨by rintro ⟨w, e⟩; simp at e, ?_⟩, Or.inr ⟨_, rfl⟩⟩
        rintro ⟨-, c8, c9⟩
        exfalso
        rcases c7 with c7 | ⟨b, hb, hn⟩
        · omega
        · have := c9 b (List.mem_of_getElem? hb); omega
  · simp only [hl, if_false]
    refine ⟨⟨by rintro ⟨w, e⟩; simp at e, by omega⟩, Or.inr ⟨_, rfl⟩⟩

/-- Both sides occur: popping all three fails, popping two completes. -/
example : (cleanup id 1 3 18446744073709551615 (Search.demo 1000 1300 2500) []).IsUB ∧
    (cleanup id 1 2 18446744073709551615 (Search.demo 1000 1300 2500) []).IsOk := by
  constructor
  · rw [(C22_ub_iff id 1 3 _ _ _ (Search.demo_repr 1000 1300 2500) []).1]
    refine ⟨by decide, by decide, ?_⟩
    intro x hx; simp at hx; rcases hx with rfl | rfl | rfl <;> decide
  · rcases (C22_ub_iff id 1 2 18446744073709551615 _ _ (Search.demo_repr 1000 1300 2500) []).2 with h | h
    · rw [(C22_ub_iff id 1 2 18446744073709551615 _ _ (Search.demo_repr 1000 1300 2500) []).1] at h
      exact absurd h.2.1 (by decide)
    · exact h

/-- Is the configuration accepted by `conf()` without an error message, l.116-121?
(`limitPct`, `sizePct` as exact numbers; an out-of-range value is only reported, l.117.) -/
def Accepted (limitPct sizePct : ℚ) : Prop :=
  0 ≤ limitPct ∧ limitPct ≤ 1 ∧ 0 ≤ sizePct ∧ sizePct ≤ 1

/-- The conversion `unsigned to_pop = m_pop_size_pct * occupancy()`, l.421: `occupancy` converted to
float, product rounded to float, truncated. `rnd` is the rounding of the float type. -/
def toPopOf (rnd : ℚ → ℚ) (sizePct : ℚ) (occ : Nat) : Nat := ⌊rnd (sizePct * rnd occ)⌋₊

/-- **C22 is false of the code**: pop_size_pct = 1 is accepted; a cleanup of a buffer above its limit
then pops everything and dereferences the null front (whatever the rounding does, provided
it represents this small occupancy exactly). -/
theorem C22_pop_all_counterexample (rnd : ℚ → ℚ) (hr : rnd 3 = 3) :
    Accepted (1/2) 1 ∧
    cleanup id 1 (toPopOf rnd 1 3) 18446744073709551615 (Search.demo 1000 1300 2500) [] =
      .ub .nullDeref := by
  refine ⟨by constructor <;> norm_num, ?_⟩
  have : toPopOf rnd 1 3 = 3 := by
    simp only [toPopOf, Nat.cast_ofNat, hr, one_mul]
    norm_num
  rw [this]; rfl

/-- **C22 (partial)** With a pop fraction at most `1 - 2^-22` (in particular the default 0.8) and any
rounding with the relative accuracy of single precision, every cleanup of every buffer completes
without undefined behaviour. Missing: fractions closer to or equal to 1, which are accepted. -/
theorem C22_cleanup_safe_partial (rnd : ℚ → ℚ) (hrnd : ∀ x, 0 ≤ x → rnd x ≤ x * (1 + 1 / 16777216))
    (hpos : ∀ x, 0 ≤ x → 0 ≤ rnd x) (sizePct : ℚ) (h0 : 0 ≤ sizePct)
    (h1 : sizePct ≤ 1 - 1 / 4194304) (ts : P → Nat) (limit next : Nat) (q : Ring.Ring P) (l : List P)
    (h : Repr q l) (reg : Reg) :
    (cleanup ts limit (toPopOf rnd sizePct q.occupancy) next q reg).IsOk := by
  have hub := C22_ub_iff ts limit (toPopOf rnd sizePct q.occupancy) next q l h reg
  rcases hub.2 with hu | hok
  · exfalso
    obtain ⟨c1, c2, -⟩ := hub.1.1 hu
    rw [h.occ] at c2
    have hpl : 0 < l.length := by omega
    have hn : (0 : ℚ) < (l.length : ℚ) := by exact_mod_cast hpl
    have e1 := hrnd (l.length : ℚ) hn.le
    have p1 := hpos (l.length : ℚ) hn.le
    have e2 := hrnd (sizePct * rnd (l.length : ℚ)) (mul_nonneg h0 p1)
    have p2 := hpos (sizePct * rnd (l.length : ℚ)) (mul_nonneg h0 p1)
    have e3 : sizePct * rnd (l.length : ℚ) ≤ (1 - 1 / 4194304) * ((l.length : ℚ) * (1 + 1 / 16777216)) :=
      mul_le_mul h1 e1 p1 (by norm_num)
    have e4 : rnd (sizePct * rnd (l.length : ℚ)) < (l.length : ℚ) := by
      have : (1 - 1 / 4194304) * ((l.length : ℚ) * (1 + 1 / 16777216)) * (1 + 1 / 16777216) <
          (l.length : ℚ) := by
        have : (1 - 1 / 4194304 : ℚ) * (1 + 1 / 16777216) * (1 + 1 / 16777216) < 1 := by norm_num
        nlinarith
      nlinarith
    have : toPopOf rnd sizePct l.length < l.length := by
      rw [toPopOf, Nat.floor_lt p2]; exact e4
    omega
  · exact hok

/-- Non-vacuity for the partial theorem: exact arithmetic and the default fraction 0.8. -/
example : (∀ x : ℚ, 0 ≤ x → (id x) ≤ x * (1 + 1 / 16777216)) ∧ (0 : ℚ) ≤ 4/5 ∧
    (4/5 : ℚ) ≤ 1 - 1/4194304 ∧ Repr (Search.demo 1000 1300 2500) [1000, 1300, 2500] :=
  ⟨fun x hx => by simp only [id]; nlinarith, by norm_num, by norm_num, Search.demo_repr _ _ _⟩

/-- **C21 is false for the sorted-list buffer** with the default cleanup (PACMAN): the pass tests the
oldest element but its `pop(1)` discards the newest one. -/
theorem C21_skiplist_counterexample :
    cleanupSkip id 2 2 18446744073709551615 [1000, 1300, 2500] [] = .ok ([1000], [], 2) := by
  rfl

/-- **C21 for the sorted list** What the pass really does: it discards newest elements only. -/
theorem C21_skiplist_discards_newest (ts : P → Nat) (next n : Nat) (l : List P) (r : List P × Nat)
    (hr : popLoopSkip ts next n l = .ok r) : r.2 ≤ n ∧ r.1 = l.take (l.length - r.2) := by
  induction n generalizing l r with
  | zero => simp [popLoopSkip] at hr; subst hr; simp
  | succ n ih =>
    simp only [popLoopSkip] at hr
    cases hf : SkipList.front l with
    | none => simp [hf] at hr
    | some a =>
      simp only [hf] at hr
      by_cases ha : ts a < next
      · simp only [ha, if_true] at hr
        cases hp : popLoopSkip ts next n (SkipList.pop l 1) with
        | ub w => simp [hp] at hr
        | throws w => simp [hp] at hr
        | ok r1 =>
          simp only [hp, Outcome.bind_ok] at hr
          injection hr with hr; subst hr
          obtain ⟨h1, h2⟩ := ih _ _ hp
          refine ⟨by simp; omega, ?_⟩
          simp only [h2, SkipList.pop, List.length_dropLast]
          rw [List.dropLast_eq_take, List.take_take]
          congr 1; omega
      · simp [ha] at hr; subst hr; simp

/-- Non-vacuity for the sorted-list statement. -/
example : popLoopSkip id 9999 2 [1000, 1300, 2500] = .ok ([1000], 2) := rfl

/-- The pop loop on a sorted list with a first element: all or nothing, depending on that element alone. -/
theorem popLoopSkip_exact (ts : P → Nat) (next n : Nat) (a : P) (l : List P) :
    popLoopSkip ts next n (a :: l) =
      if n = 0 ∨ next ≤ ts a then .ok (a :: l, 0)
      else if l.length + 1 < n then .ub .nullDeref
      else .ok ((a :: l).take (l.length + 1 - n), n) := by
  induction n generalizing l with
  | zero => simp [popLoopSkip]
  | succ n ih =>
    simp only [popLoopSkip, SkipList.front, List.head?_cons]
    by_cases ha : ts a < next
    · have hna : ¬ next ≤ ts a := by omega
      rw [if_pos ha]
      simp only [Nat.succ_ne_zero, hna, or_self, if_false]
      rcases List.eq_nil_or_concat l with rfl | ⟨l', b, rfl⟩
      · cases n with
        | zero => simp [SkipList.pop, popLoopSkip]
        | succ n => simp [SkipList.pop, popLoopSkip, SkipList.front]
      · have e : SkipList.pop (a :: (l'.concat b)) 1 = a :: l' := by
          simp only [SkipList.pop, List.concat_eq_append]
          exact List.dropLast_concat (l₁ := a :: l')
        rw [e, ih]
        simp only [hna, or_false, List.concat_eq_append, List.length_append, List.length_cons,
          List.length_nil]
        by_cases h0 : n = 0
        · subst h0
          simp
        · rw [if_neg h0]
          by_cases h1 : l'.length + 1 < n
          · rw [if_pos h1, if_pos (by omega)]; rfl
          · rw [if_neg h1, if_neg (by omega)]
            simp only [Outcome.bind_ok]
            congr 2
            rw [show l'.length + (0 + 1) + 1 - (n + 1) = l'.length + 1 - n by omega]
            rw [← List.cons_append, List.take_append_of_le_length (by simp)]
    · rw [if_neg ha, if_pos (Or.inr (by omega))]

/-- **C21 for the sorted list, exactly** At or below the limit nothing happens. Above it everything depends on the
oldest payload: if that is not before the recording position nothing is discarded; if it is, exactly `toPop` of the
newest payloads are, and asking for all of them dereferences a null front. Errors expire with the oldest payload. -/
theorem C21_skiplist_exact (ts : P → Nat) (limit toPop next : Nat) (l : List P) (reg : Reg) :
    (l.length ≤ limit → cleanupSkip ts limit toPop next l reg = .ok (l, reg, 0)) ∧
    (∀ (a : P), limit < l.length → l.head? = some a →
      (next ≤ ts a → cleanupSkip ts limit toPop next l reg = .ok (l, removeErrorsUntil reg (ts a), 0)) ∧
      (ts a < next → toPop < l.length → cleanupSkip ts limit toPop next l reg =
        .ok (l.take (l.length - toPop), removeErrorsUntil reg (ts a), toPop)) ∧
      (ts a < next → l.length ≤ toPop → cleanupSkip ts limit toPop next l reg = .ub .nullDeref)) := by
  refine ⟨fun h => ?_, fun a h ha => ?_⟩
  · have : ¬ SkipList.occupancy l > limit := by simp only [SkipList.occupancy]; omega
    simp [cleanupSkip, this]
  · obtain ⟨t, rfl⟩ : ∃ t, l = a :: t := by
      cases l with
      | nil => simp at ha
      | cons b t => simp at ha; subst ha; exact ⟨t, rfl⟩
    have hocc : SkipList.occupancy (a :: t) > limit := h
    simp only [cleanupSkip, hocc, if_true, popLoopSkip_exact]
    simp only [List.length_cons] at h ⊢
    refine ⟨fun hn => ?_, fun hn hp => ?_, fun hn hp => ?_⟩
    · simp [hn, SkipList.front]
    · by_cases h0 : toPop = 0
      · subst h0; simp [SkipList.front, List.take_of_length_le]
      · rw [if_neg (by omega), if_neg (by omega)]
        obtain ⟨m, hm⟩ : ∃ m, t.length + 1 - toPop = m + 1 := ⟨t.length - toPop, by omega⟩
        simp [hm, SkipList.front]
    · rw [if_neg (by omega)]
      by_cases h1 : t.length + 1 < toPop
      · rw [if_pos h1]; rfl
      · have : t.length + 1 = toPop := by omega
        rw [if_neg h1]; simp [this, SkipList.front]

example : cleanupSkip id 2 2 1200 [1000, 1300, 2500] [] = .ok ([1000], [], 2) ∧
    cleanupSkip id 2 2 900 [1000, 1300, 2500] [] = .ok ([1000, 1300, 2500], [], 0) ∧
    cleanupSkip id 3 2 1200 [1000, 1300, 2500] [] = .ok ([1000, 1300, 2500], [], 0) ∧
    cleanupSkip id 2 3 1200 [1000, 1300, 2500] [] = .ub .nullDeref := ⟨rfl, rfl, rfl, rfl⟩

end Verif.Cleanup
