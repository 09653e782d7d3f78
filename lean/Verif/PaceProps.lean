import Verif.PaceModel
import Verif.EmuRateProps
import Mathlib.Tactic.Linarith
import Mathlib.Tactic.NormNum
import Mathlib.Tactic.FieldSimp

/-!
# The rate limiter for every slowdown factor: properties

C132. The specification is in terms of the times at which rounds begin: a slowdown factor promises one round every
`1000000 * slow / khz` nanoseconds, and `stop` that the thread ends.
-/

namespace Verif.Pace

/-! ## Specification -/

/-- What is used about rounding: relative accuracy 1/10000, symmetry, and a largest number of at least 10^40. -/
structure Good (rnd : ℚ → ℚ) (big : ℚ) : Prop where
  acc : EmuRate.Accurate rnd
  odd : ∀ x, rnd (-x) = -rnd x
  big : 10000000000000000000000000000000000000000 ≤ big

theorem rnd_zero {rnd : ℚ → ℚ} {big : ℚ} (h : Good rnd big) : rnd 0 = 0 := by
  have := h.odd 0
  rw [neg_zero] at this
  linarith

theorem of_fin {rnd : ℚ → ℚ} {big x : ℚ} (h : |rnd x| ≤ big) : Dbl.of rnd big x = .fin (rnd x) := if_pos h

/-! ## The period -/

/-- The three operations in exact arithmetic, for positive numbers of moderate size. -/
theorem period_eq {rnd : ℚ → ℚ} {big : ℚ} (h : Good rnd big) (khz slow : ℚ) (hk : 1 ≤ khz) (hk2 : khz ≤ 1000)
    (hs : 1 / 1000000 ≤ slow) (hs2 : slow ≤ 10000000000000000000000000) :
    ∃ v, Dbl.mul rnd big (Dbl.div rnd big (.fin 1000) (Dbl.div rnd big (.fin khz) (.fin slow))) (.fin 1000) = .fin v ∧
      Dbl.mul rnd big (Dbl.div rnd big (.fin 1000) (Dbl.div rnd big (.fin khz) (.fin (-slow)))) (.fin 1000) = .fin (-v) ∧
      v = rnd (rnd (1000 / rnd (khz / slow)) * 1000) ∧
      1000000 * slow / khz * (1 - 4 / 10000) ≤ v ∧ v ≤ 1000000 * slow / khz * (1 + 4 / 10000) := by
  have hs0 : 0 < slow := by linarith
  have hk0 : 0 < khz := by linarith
  obtain ⟨a1, a2⟩ := h.acc (khz / slow) (div_pos hk0 hs0)
  have hx : 0 < khz / slow := div_pos hk0 hs0
  have ha : 0 < rnd (khz / slow) := lt_of_lt_of_le (mul_pos hx (by norm_num)) a1
  have hub : khz / slow ≤ 1000000000 := by rw [div_le_iff₀ hs0]; linarith
  have ey : 1000 / (khz / slow) = 1000 * slow / khz := by field_simp
  have hy : 0 < 1000 * slow / khz := div_pos (mul_pos (by norm_num) hs0) hk0
  have q1 : 1000 * slow / khz * (1 - 11 / 100000) ≤ 1000 / rnd (khz / slow) := by
    rw [le_div_iff₀ ha, ← ey]
    have : 1000 / (khz / slow) * (khz / slow) = 1000 := by field_simp
    have hz : 0 < 1000 / (khz / slow) := div_pos (by norm_num) hx
    nlinarith
  have q2 : 1000 / rnd (khz / slow) ≤ 1000 * slow / khz * (1 + 11 / 100000) := by
    rw [div_le_iff₀ ha, ← ey]
    have : 1000 / (khz / slow) * (khz / slow) = 1000 := by field_simp
    have hz : 0 < 1000 / (khz / slow) := div_pos (by norm_num) hx
    nlinarith
  have hyb : 1000 * slow / khz ≤ 10000000000000000000000000000 := by
    rw [div_le_iff₀ hk0]; nlinarith
  have hbp : 0 < 1000 / rnd (khz / slow) := div_pos (by norm_num) ha
  obtain ⟨b1, b2⟩ := h.acc _ hbp
  have hb : 0 < rnd (1000 / rnd (khz / slow)) := lt_of_lt_of_le (mul_pos hbp (by norm_num)) b1
  obtain ⟨c1, c2⟩ := h.acc (rnd (1000 / rnd (khz / slow)) * 1000) (mul_pos hb (by norm_num))
  have hc : 0 < rnd (rnd (1000 / rnd (khz / slow)) * 1000) := lt_of_lt_of_le (mul_pos (mul_pos hb (by norm_num)) (by norm_num)) c1
  have e6 : 1000000 * slow / khz = 1000 * slow / khz * 1000 := by ring
  have hB := h.big
  refine ⟨_, ?_, ?_, rfl, ?_, ?_⟩
  · have f1 : Dbl.div rnd big (.fin khz) (.fin slow) = .fin (rnd (khz / slow)) := by
      show (if slow = 0 then _ else _) = _
      rw [if_neg (ne_of_gt hs0), of_fin]
      rw [abs_of_pos ha]; linarith
    have f2 : Dbl.div rnd big (.fin 1000) (.fin (rnd (khz / slow))) = .fin (rnd (1000 / rnd (khz / slow))) := by
      show (if rnd (khz / slow) = 0 then _ else _) = _
      rw [if_neg (ne_of_gt ha), of_fin]
      rw [abs_of_pos hb]; linarith
    rw [f1, f2]
    show Dbl.of rnd big _ = _
    rw [of_fin]
    rw [abs_of_pos hc]; linarith
  · have f1 : Dbl.div rnd big (.fin khz) (.fin (-slow)) = .fin (-rnd (khz / slow)) := by
      show (if -slow = 0 then _ else _) = _
      rw [if_neg (by linarith), div_neg, of_fin, h.odd]
      rw [h.odd, abs_neg, abs_of_pos ha]; linarith
    have f2 : Dbl.div rnd big (.fin 1000) (.fin (-rnd (khz / slow))) = .fin (-rnd (1000 / rnd (khz / slow))) := by
      show (if -rnd (khz / slow) = 0 then _ else _) = _
      rw [if_neg (by linarith), div_neg, of_fin, h.odd]
      rw [h.odd, abs_neg, abs_of_pos hb]; linarith
    rw [f1, f2]
    show Dbl.of rnd big _ = _
    rw [neg_mul, of_fin, h.odd]
    rw [h.odd, abs_neg, abs_of_pos hc]; linarith
  · generalize 1000 / rnd (khz / slow) = y at *
    generalize rnd (rnd y * 1000) = v at *
    rw [e6]; nlinarith
  · generalize 1000 / rnd (khz / slow) = y at *
    generalize rnd (rnd y * 1000) = v at *
    rw [e6]; nlinarith

/-- **C132 (the period)** For every slowdown factor from one millionth to 10^12 (rates from 1 to 1000 kHz) the limiter's period
is defined and is that of the factor, up to 1 ns and 4 parts in 10000. -/
theorem C132_period {rnd : ℚ → ℚ} {big : ℚ} (h : Good rnd big) (khz slow : ℚ) (hk : 1 ≤ khz) (hk2 : khz ≤ 1000)
    (hs : 1 / 1000000 ≤ slow) (hs2 : slow ≤ 1000000000000) :
    ∃ P, period rnd big khz slow = .ok P ∧ P = EmuRate.period rnd khz slow ∧
      1000000 * slow / khz * (1 - 4 / 10000) - 1 < P ∧ (P : ℚ) ≤ 1000000 * slow / khz * (1 + 4 / 10000) := by
  obtain ⟨v, e, -, hv, l, u⟩ := period_eq h khz slow hk hk2 hs (by linarith)
  have hk0 : 0 < khz := by linarith
  have hx : 0 < 1000000 * slow / khz := div_pos (by linarith) hk0
  have hxb : 1000000 * slow / khz ≤ 1000000000000000000 := by rw [div_le_iff₀ hk0]; nlinarith
  have hv0 : 0 < v := lt_of_lt_of_le (mul_pos hx (by norm_num)) l
  refine ⟨⌊v⌋₊, ?_, ?_, ?_, ?_⟩
  · unfold period
    rw [e]
    show (if -1 < v ∧ v < 18446744073709551616 then _ else _) = _
    rw [if_pos ⟨by linarith, by linarith⟩]
  · rw [hv]; rfl
  · have := Nat.lt_floor_add_one v; linarith
  · exact (Nat.floor_le hv0.le).trans u

/-- **C132, negative part (1)**: negative factors are not refused; from -1 to -10^25 the conversion is undefined. -/
theorem C132_negative_counterexample {rnd : ℚ → ℚ} {big : ℚ} (h : Good rnd big) (khz slow : ℚ) (hk : 1 ≤ khz)
    (hk2 : khz ≤ 1000) (hs : slow ≤ -1) (hs2 : -10000000000000000000000000 ≤ slow) :
    period rnd big khz slow = .ub .overflow := by
  obtain ⟨v, -, e, -, l, -⟩ := period_eq h khz (-slow) hk hk2 (by linarith) (by linarith)
  rw [neg_neg] at e
  have hk0 : 0 < khz := by linarith
  have hx : 1000 ≤ 1000000 * -slow / khz := by rw [le_div_iff₀ hk0]; linarith
  unfold period
  rw [e]
  show (if -1 < -v ∧ -v < 18446744073709551616 then _ else _) = _
  rw [if_neg]
  rintro ⟨h1, -⟩
  linarith

/-- **C132, negative part (2)**: nor are huge ones, from 10^20 to 10^25. -/
theorem C132_huge_counterexample {rnd : ℚ → ℚ} {big : ℚ} (h : Good rnd big) (khz slow : ℚ) (hk : 1 ≤ khz)
    (hk2 : khz ≤ 1000) (hs : 100000000000000000000 ≤ slow) (hs2 : slow ≤ 10000000000000000000000000) :
    period rnd big khz slow = .ub .overflow := by
  obtain ⟨v, e, -, -, l, -⟩ := period_eq h khz slow hk hk2 (by linarith) (by linarith)
  have hk0 : 0 < khz := by linarith
  have hx : 100000000000000000000000 ≤ 1000000 * slow / khz := by rw [le_div_iff₀ hk0]; linarith
  unfold period
  rw [e]
  show (if -1 < v ∧ v < 18446744073709551616 then _ else _) = _
  rw [if_neg]
  rintro ⟨-, h1⟩
  linarith

theorem period_zero {rnd : ℚ → ℚ} {big : ℚ} (h : Good rnd big) (khz : ℚ) (hk : 1 ≤ khz) :
    period rnd big khz 0 = .ok 0 := by
  have hB := h.big
  have f1 : Dbl.div rnd big (.fin khz) (.fin 0) = .inf (decide (khz < 0)) := by
    have hk0 : khz ≠ 0 := by linarith
    simp [Dbl.div, hk0]
  have f2 : Dbl.div rnd big (.fin 1000) (.inf (decide (khz < 0))) = .fin 0 := rfl
  have f3 : Dbl.mul rnd big (.fin 0) (.fin 1000) = .fin 0 := by
    show Dbl.of rnd big (0 * 1000) = _
    rw [zero_mul, of_fin, rnd_zero h]
    rw [rnd_zero h, abs_zero]; linarith
  unfold period
  rw [f1, f2, f3]
  simp [Dbl.toU64]

/-! ## Runs -/

theorem u64_of_lt {x : Nat} (h : x < 18446744073709551616) : u64 x = x := by
  unfold u64
  exact Nat.mod_eq_of_lt h

/-- One call of `limit()` away from the end of the 64-bit clock. -/
theorem limit_eq {P O : Nat} (s : RL) (t : Nat) (h1 : s.deadline ≤ s.now + P)
    (h2 : s.now + P + O < 18446744073709551616)
    (h3 : waits O s = true → s.deadline ≤ t ∧ t + P + O < 18446744073709551616) :
    limit P O s t = ⟨(Misc.limit P O ⟨s.now, s.deadline⟩ t).now, (Misc.limit P O ⟨s.now, s.deadline⟩ t).deadline⟩ ∧
      (waits O s = true ↔ ¬ s.now > s.deadline + O ∧ s.now < s.deadline) := by
  have u1 : u64 (s.deadline + O) = s.deadline + O := u64_of_lt (by omega)
  have u2 : u64 (s.now + P) = s.now + P := u64_of_lt (by omega)
  have hw : waits O s = true ↔ ¬ s.now > s.deadline + O ∧ s.now < s.deadline := by
    unfold waits late
    rw [u1]
    simp
  refine ⟨?_, hw⟩
  unfold limit late Misc.limit
  rw [u1, u2]
  dsimp only
  by_cases hl : s.now > s.deadline + O
  · rw [decide_eq_true hl, if_pos rfl, if_pos hl]
  · rw [decide_eq_false hl, if_neg (by simp), if_neg hl]
    by_cases hx : s.now < s.deadline
    · rw [if_pos hx, if_pos hx]
      obtain ⟨g1, g2⟩ := h3 (hw.2 ⟨hl, hx⟩)
      have u3 : u64 (s.deadline + P) = s.deadline + P := u64_of_lt (by omega)
      rw [u3]
    · rw [if_neg hx, if_neg hx]
      have u3 : u64 (s.deadline + P) = s.deadline + P := u64_of_lt (by omega)
      rw [u3]

/-- A run that does not come near the end of the 64-bit clock. -/
def Far {P O G N : Nat} (e : Run P O G N) : Prop := ∀ k, k ≤ N → e.t k + P + O < 18446744073709551616

/-- The states of such a run. -/
theorem no_wrap {P O G N : Nat} (e : Run P O G N) (h : Far e) (k : Nat) (hk : k ≤ N) :
    (e.s k).deadline ≤ (e.s k).now + P ∧ (e.s k).now ≤ e.r k ∧ (e.s k).now + P + O < 18446744073709551616 := by
  induction k with
  | zero =>
    obtain ⟨h1, h2⟩ := e.start
    have h0 := h 0 (Nat.zero_le _)
    rw [h1]
    have u : u64 (e.t 0 + P) = e.t 0 + P := u64_of_lt (by omega)
    unfold init
    dsimp only
    omega
  | succ k ih =>
    obtain ⟨i1, i2, i3⟩ := ih (by omega)
    obtain ⟨l1, l2⟩ := limit_eq (e.s k) (e.t (k + 1)) i1 i3 (fun w => ⟨(e.reading k hk w).2.2, h (k + 1) hk⟩)
    obtain ⟨o1, o2⟩ := e.order k hk
    rw [e.step k hk, l1]
    unfold Misc.limit
    dsimp only
    split
    · dsimp only
      omega
    · rename_i hl
      split
      · rename_i hx
        obtain ⟨g1, g2, g3⟩ := e.reading k hk (l2.2 ⟨hl, hx⟩)
        have := h (k + 1) hk
        dsimp only
        omega
      · dsimp only
        omega

/-- Rounds after the last one of a run, of a limiter without bounds whose caller loses no time. -/
def ext (P O : Nat) (x : Misc.RL × Nat) : Nat → Misc.RL × Nat
  | 0 => x
  | m + 1 =>
    let y := ext P O x m
    (Misc.limit P O y.1 (max y.2 y.1.deadline), max y.2 y.1.deadline)

/-- **C132 (64 bits are enough)** As long as the clock, the period and the allowance for overshoots (10 ms) together stay below
2^64 ns (584 years), the limiter with its 64-bit members is the limiter of C48: same deadlines, same times. -/
theorem C132_as_unbounded {P O G N : Nat} (e : Run P O G N) (h : Far e) :
    ∃ x : Misc.Exec P O, ∀ k, k ≤ N →
      x.r k = e.r k ∧ (x.s k).now = (e.s k).now ∧ (x.s k).deadline = (e.s k).deadline := by
  have lim := fun k (hk : k < N) => limit_eq (e.s k) (e.t (k + 1)) (no_wrap e h k hk.le).1 (no_wrap e h k hk.le).2.2
    (fun w => ⟨(e.reading k hk w).2.2, h (k + 1) hk⟩)
  let y := ext P O (⟨(e.s N).now, (e.s N).deadline⟩, e.r N)
  have y0 : y 0 = (⟨(e.s N).now, (e.s N).deadline⟩, e.r N) := rfl
  have y1 : ∀ m, y (m + 1) = (Misc.limit P O (y m).1 (max (y m).2 (y m).1.deadline), max (y m).2 (y m).1.deadline) := fun _ => rfl
  let s : Nat → Misc.RL := fun k => if k ≤ N then ⟨(e.s k).now, (e.s k).deadline⟩ else (y (k - N)).1
  let r : Nat → Nat := fun k => if k ≤ N then e.r k else (y (k - N)).2
  let t : Nat → Nat := fun k => if k ≤ N then e.t k else (y (k - N)).2
  have s1 : ∀ k, k ≤ N → s k = ⟨(e.s k).now, (e.s k).deadline⟩ := fun k hk => if_pos hk
  have r1 : ∀ k, k ≤ N → r k = e.r k := fun k hk => if_pos hk
  have t1 : ∀ k, k ≤ N → t k = e.t k := fun k hk => if_pos hk
  have s2 : ∀ m, s (N + m) = (y m).1 := by
    intro m
    cases m with
    | zero => exact (s1 _ (Nat.le_refl _)).trans (by rw [y0])
    | succ m =>
      show (if N + (m + 1) ≤ N then _ else _) = _
      rw [if_neg (by omega), show N + (m + 1) - N = m + 1 by omega]
  have r2 : ∀ m, r (N + m) = (y m).2 := by
    intro m
    cases m with
    | zero => exact (r1 _ (Nat.le_refl _)).trans (by rw [y0])
    | succ m =>
      show (if N + (m + 1) ≤ N then _ else _) = _
      rw [if_neg (by omega), show N + (m + 1) - N = m + 1 by omega]
  have t2 : ∀ m, t (N + (m + 1)) = (y (m + 1)).2 := by
    intro m
    show (if N + (m + 1) ≤ N then _ else _) = _
    rw [if_neg (by omega), show N + (m + 1) - N = m + 1 by omega]
  refine ⟨{ s := s, r := r, t := t, start := ?_, mono := ?_, step := ?_, reading := ?_ }, fun k hk => ?_⟩
  · have h0 := h 0 (Nat.zero_le _)
    rw [s1 0 (Nat.zero_le _), r1 0 (Nat.zero_le _), t1 0 (Nat.zero_le _)]
    refine ⟨?_, e.start.2⟩
    rw [e.start.1]
    unfold init Misc.rlInit
    dsimp only
    rw [u64_of_lt (by omega)]
  · intro k
    by_cases hk : k < N
    · rw [r1 k hk.le, r1 (k + 1) hk]
      have := e.order k hk
      omega
    · obtain ⟨m, rfl⟩ := Nat.exists_eq_add_of_le (Nat.le_of_not_lt hk)
      rw [Nat.add_assoc, r2, r2, y1]
      exact Nat.le_max_left _ _
  · intro k
    by_cases hk : k < N
    · rw [s1 k hk.le, s1 (k + 1) hk, t1 (k + 1) hk, e.step k hk, (lim k hk).1]
    · obtain ⟨m, rfl⟩ := Nat.exists_eq_add_of_le (Nat.le_of_not_lt hk)
      rw [Nat.add_assoc, s2, s2, t2, y1]
  · intro k
    by_cases hk : k < N
    · rw [s1 k hk.le, r1 k hk.le, r1 (k + 1) hk, t1 (k + 1) hk]
      dsimp only
      intro h1 h2
      have g := e.reading k hk ((lim k hk).2.2 ⟨h1, h2⟩)
      have := e.order k hk
      omega
    · obtain ⟨m, rfl⟩ := Nat.exists_eq_add_of_le (Nat.le_of_not_lt hk)
      intro _ _
      rw [Nat.add_assoc, s2, r2, r2, t2, y1]
      dsimp only
      omega
  · dsimp only
    rw [s1 k hk, r1 k hk]
    exact ⟨rfl, rfl, rfl⟩

theorem rate {P O G N : Nat} (e : Run P O G N) (h : Far e) (i j : Nat) (hN : i + j ≤ N) :
    j * P ≤ (e.r (i + j) - e.r i) + 2 * O + 3 * P := by
  obtain ⟨x, hx⟩ := C132_as_unbounded e h
  have := Misc.C48_rate_bounded P O x i j
  rwa [(hx (i + j) hN).1, (hx i (by omega)).1] at this

/-- **C132 (the rate)** so `j` rounds take no less than `j` periods, up to three periods and twice 10 ms. -/
theorem C132_rate {P G N : Nat} (e : Run P allowance G N)
    (h : ∀ k, k ≤ N → e.t k + P + 10000000 < 18446744073709551616) (i j : Nat) (hN : i + j ≤ N) :
    j * P ≤ (e.r (i + j) - e.r i) + 20000000 + 3 * P := by
  have ha : allowance = 10000000 := rfl
  generalize allowance = O at *
  have := rate e (fun k hk => by have := h k hk; omega) i j hN
  omega

/-- **C132, negative part (3)**: factor 0 is not refused either; it means period 0, and in every run with period 0 no call of
`limit()` ever waits: the emulator runs as fast as it can. -/
theorem C132_zero_counterexample {rnd : ℚ → ℚ} {big : ℚ} (h : Good rnd big) (khz : ℚ) (hk : 1 ≤ khz) :
    period rnd big khz 0 = .ok 0 ∧
      ∀ (O G N : Nat) (e : Run 0 O G N) (k : Nat), k < N → waits O (e.s k) = false ∧ e.r (k + 1) ≤ e.c k + G := by
  refine ⟨period_zero h khz hk, fun O G N e k hN => ?_⟩
  have inv : (e.s k) = ⟨e.t 0, e.t 0⟩ := by
    induction k with
    | zero =>
      rw [e.start.1]
      unfold init
      rw [show u64 (e.t 0 + 0) = e.t 0 from u64_of_lt (e.clock 0 (Nat.zero_le _))]
    | succ k ih =>
      rw [e.step k (by omega), ih (by omega)]
      unfold limit
      have u : u64 (e.t 0) = e.t 0 := u64_of_lt (e.clock 0 (Nat.zero_le _))
      simp [u]
  have hw : waits O (e.s k) = false := by rw [inv]; simp [waits]
  exact ⟨hw, e.through k hN hw⟩

/-- **C132, negative part (4)**: with a period that takes the first deadline past 2^64 the deadline is in the past, and the limiter
never waits either: the emulator asked to be slowest runs as fast as it can. -/
theorem C132_wrap_counterexample {P O G N : Nat} (e : Run P O G N) (h1 : 18446744073709551616 ≤ e.t 0 + P)
    (h2 : P + O < 18446744073709551616) (k : Nat) (hN : k < N) : waits O (e.s k) = false ∧ e.r (k + 1) ≤ e.c k + G := by
  have hc := e.clock 0 (Nat.zero_le _)
  have u : u64 (e.t 0 + P) = e.t 0 + P - 18446744073709551616 := by unfold u64; omega
  have hl : late O ⟨e.t 0, e.t 0 + P - 18446744073709551616⟩ = true := by
    unfold late u64
    rw [decide_eq_true_iff]
    dsimp only
    omega
  have inv : (e.s k) = ⟨e.t 0, e.t 0 + P - 18446744073709551616⟩ := by
    induction k with
    | zero =>
      rw [e.start.1]
      unfold init
      rw [u]
    | succ k ih =>
      rw [e.step k (by omega), ih (by omega)]
      unfold limit
      rw [if_pos hl]
      dsimp only
      rw [u]
  have hw : waits O (e.s k) = false := by
    rw [inv]
    unfold waits
    rw [hl]
    rfl
  exact ⟨hw, e.through k hN hw⟩

/-! ## Stopping -/

theorem mono {P O G N : Nat} (e : Run P O G N) (i j : Nat) (hN : i + j ≤ N) : e.r i ≤ e.r (i + j) := by
  induction j with
  | zero => exact Nat.le_refl _
  | succ j ih =>
    have := e.order (i + j) (by omega)
    have := ih (by omega)
    rw [← Nat.add_assoc]
    omega

/-- **C132 (stopping takes at most a period)** A thread whose rounds take at most `W` leaves its loop within the longer of a round
and a period after the run marker is cleared. -/
theorem C132_stop {P O G N W : Nat} (e : Run P O G N) (h : Far e)
    (hW : ∀ k, k < N → e.c k ≤ e.r k + W) (x k : Nat) (hl : LeavesAt e x k) (h0 : e.r 0 < x) : e.r k ≤ x + max W P + G := by
  obtain ⟨h1, h2, h3⟩ := hl
  cases k with
  | zero => omega
  | succ k =>
    have a := h3 k (Nat.lt_succ_self k)
    obtain ⟨n1, n2, -⟩ := no_wrap e h k (by omega)
    have w := hW k h1
    by_cases hw : waits O (e.s k) = true
    · have p := e.prompt k h1 hw; omega
    · have p := e.through k h1 (by simpa using hw); omega

/-- **C132 (it does leave)**, at one round, after at most as many rounds as there are periods until then, up to three and the overshoots. -/
theorem C132_leaves {P O G N : Nat} (e : Run P O G N) (h : Far e) (x : Nat) (hN : x + 2 * O + 3 * P ≤ N * P) :
    ∃! k, LeavesAt e x k := by
  have hb : ∃ k, x ≤ e.r k := by
    refine ⟨N, ?_⟩
    have := rate e h 0 N (by omega)
    rw [Nat.zero_add] at this
    omega
  have hN' : x ≤ e.r N := by
    have := rate e h 0 N (by omega)
    rw [Nat.zero_add] at this
    omega
  refine ⟨Nat.find hb, ⟨Nat.find_min' hb hN', Nat.find_spec hb, fun j hj => ?_⟩, fun k hk => ?_⟩
  · have := Nat.find_min hb hj
    omega
  · obtain ⟨-, g2, g3⟩ := hk
    rcases Nat.lt_trichotomy k (Nat.find hb) with h | h | h
    · have := Nat.find_min hb h
      omega
    · exact h
    · have := g3 _ h
      have := Nat.find_spec hb
      omega

/-- **C132, negative part (5)**: the wait cannot be cut short. Whoever stops a run whose first round has begun waits until a full
period has passed since the start. -/
theorem C132_stop_counterexample {P O G N : Nat} (e : Run P O G N) (h : e.t 0 + P + O < 18446744073709551616) (hP : 0 < P)
    (x k : Nat) (hx : e.r 0 < x) (hl : LeavesAt e x k) : e.t 0 + P ≤ e.r k := by
  obtain ⟨h1, h2, h3⟩ := hl
  cases k with
  | zero => omega
  | succ k =>
    have u : u64 (e.t 0 + P) = e.t 0 + P := u64_of_lt (by omega)
    have hs : e.s 0 = ⟨e.t 0, e.t 0 + P⟩ := by rw [e.start.1]; unfold init; rw [u]
    have hw : waits O (e.s 0) = true := by
      rw [hs]
      unfold waits late
      rw [u64_of_lt (show (⟨e.t 0, e.t 0 + P⟩ : RL).deadline + O < _ from h)]
      rw [Bool.and_eq_true, Bool.not_eq_true', decide_eq_false_iff_not, decide_eq_true_iff]
      dsimp only
      omega
    obtain ⟨-, g2, g3⟩ := e.reading 0 (by omega) hw
    rw [hs] at g3
    have m := mono e 1 k (by omega)
    rw [Nat.add_comm 1 k] at m
    have g3' : e.t 0 + P ≤ e.t 1 := g3
    have g2' : e.t 1 ≤ e.r 1 := g2
    omega

/-! ## Cases -/

/-- Exact arithmetic. -/
theorem good_id : Good id 10000000000000000000000000000000000000000 :=
  ⟨fun x hx => ⟨by simp only [id]; linarith, by simp only [id]; linarith⟩, fun _ => rfl, le_refl _⟩

/-- A run of three rounds with period 1000 that start at time 5, of a thread that takes 200 for each round. -/
def three : Run 1000 allowance 1 3 where
  s := fun k => match k with | 0 => ⟨5, 1005⟩ | 1 => ⟨1005, 2005⟩ | 2 => ⟨2006, 3005⟩ | _ => ⟨3005, 4005⟩
  r := fun k => match k with | 0 => 6 | 1 => 1005 | 2 => 2006 | _ => 3005
  c := fun k => match k with | 0 => 206 | 1 => 1205 | 2 => 2206 | _ => 3205
  t := fun k => match k with | 0 => 5 | 1 => 1005 | 2 => 2006 | _ => 3005
  start := by decide
  order := by decide
  step := by decide
  reading := by decide
  prompt := by decide
  through := by decide
  clock := by decide

/-- Stopped at time 1300, in its second round, it leaves at 2006. -/
example : LeavesAt three 1300 2 ∧ three.r 2 = 2006 ∧ 2006 ≤ 1300 + max 200 1000 + 1 := by
  unfold LeavesAt; decide

example : Far three := by unfold Far; decide

example : ∀ k, k < 3 → three.c k ≤ three.r k + 200 := by decide

/-- Stopped at time 7, right after its start, it leaves at 1005. -/
example : LeavesAt three 7 1 ∧ three.t 0 + 1000 = 1005 ∧ three.r 1 = 1005 := by unfold LeavesAt; decide

/-- A run of three rounds with period 0, in which no time passes at all. -/
def frozen : Run 0 allowance 0 3 where
  s := fun _ => ⟨5, 5⟩
  r := fun _ => 5
  c := fun _ => 5
  t := fun _ => 5
  start := by decide
  order := by decide
  step := by decide
  reading := by decide
  prompt := by decide
  through := by decide
  clock := by decide

/-- A run with the longest of periods but 20 ms, a second after the computer started; no time passes in it either. -/
def wrapped : Run 18446744073689551616 allowance 0 3 where
  s := fun _ => ⟨1000000000, 980000000⟩
  r := fun _ => 1000000000
  c := fun _ => 1000000000
  t := fun _ => 1000000000
  start := by decide
  order := by decide
  step := by decide
  reading := by decide
  prompt := by decide
  through := by decide
  clock := by decide

example : 18446744073709551616 ≤ wrapped.t 0 + 18446744073689551616 ∧
    18446744073689551616 + allowance < 18446744073709551616 := by decide

/-- A WIB link slowed down by a thousand million has a period of 100 minutes, and a run stopped after its first round began is not
over sooner. -/
example : ∃ P, period id 10000000000000000000000000000000000000000 166 1000000000 = .ok P ∧ 6000000000000 < P ∧
    P < 6100000000000 := by
  obtain ⟨P, h1, -, h2, h3⟩ := C132_period good_id 166 1000000000 (by norm_num) (by norm_num) (by norm_num) (by norm_num)
  refine ⟨P, h1, ?_, ?_⟩
  · have : (6000000000000 : ℚ) < P := by linarith
    exact_mod_cast this
  · have : (P : ℚ) < 6100000000000 := by linarith
    exact_mod_cast this

example : period id 10000000000000000000000000000000000000000 166 (-10) = .ub .overflow :=
  C132_negative_counterexample good_id _ _ (by norm_num) (by norm_num) (by norm_num) (by norm_num)

example : period id 10000000000000000000000000000000000000000 166 1000000000000000000000 = .ub .overflow :=
  C132_huge_counterexample good_id _ _ (by norm_num) (by norm_num) (by norm_num) (by norm_num)

end Verif.Pace
