import Verif.FirModel
import Verif.TpgProps
import Mathlib.Analysis.SpecialFunctions.Trigonometric.Chebyshev.Basic
import Mathlib.Analysis.Real.Pi.Bounds
import Mathlib.Algebra.BigOperators.Intervals
import Mathlib.Algebra.BigOperators.Field
import Mathlib.Tactic.FieldSimp
import Mathlib.Tactic.Linarith
/- Property C80: the filter of the hit finder. -/
namespace Verif.Fir
open Real

/-- **C80 (gain)** Whenever the normalisation is possible, the coefficients sum to one: a constant input
passes unchanged. (At least two taps: with one tap the window divides zero by zero, l.25, which the real
numbers of the model do not show.) -/
theorem C80_unit_gain (N : ℕ) (_hN : 2 ≤ N) (cutoff : ℝ) (h : total N cutoff ≠ 0) (x : ℝ) :
    ∑ m ∈ Finset.range N, firwin N cutoff m * x = x := by
  rw [← Finset.sum_mul]
  simp only [firwin]
  rw [← Finset.sum_div]
  rw [show ∑ m ∈ Finset.range N, raw N cutoff m = total N cutoff from rfl, div_self h, one_mul]

theorem hamming_pos (M n : ℕ) : 0 < hamming M n := by
  have := cos_le_one (2 * π * n / (M - 1))
  unfold hamming
  norm_num at *
  linarith

theorem sinc_neg (x : ℝ) : sinc (-x) = sinc x := by
  unfold sinc
  by_cases h : x = 0
  · simp [h]
  · rw [if_neg (by simpa using h), if_neg h, mul_neg, sin_neg, neg_div_neg_eq]

theorem sinc_pos {x : ℝ} (h : |x| < 1) : 0 < sinc x := by
  have key : ∀ y, 0 < y → y < 1 → 0 < sinc y := by
    intro y h0 h1
    unfold sinc
    rw [if_neg h0.ne']
    have : 0 < π * y := mul_pos pi_pos h0
    exact div_pos (sin_pos_of_pos_of_lt_pi this (by nlinarith [pi_pos])) this
  rcases lt_trichotomy x 0 with hx | hx | hx
  · rw [← sinc_neg]; exact key _ (by linarith) (by rw [abs_of_neg hx] at h; exact h)
  · simp [sinc, hx]
  · exact key _ hx (by rw [abs_of_pos hx] at h; exact h)

/-- **C80 (positive)** For a cutoff below 2/N the coefficients are all positive (and the normalisation is
possible); no coefficient exceeds one. -/
theorem C80_positive (N : ℕ) (hN : 2 ≤ N) (cutoff : ℝ) (h0 : 0 ≤ cutoff) (h1 : cutoff * N < 2) :
    0 < total N cutoff ∧ ∀ m, m < N → 0 < firwin N cutoff m ∧ firwin N cutoff m ≤ 1 := by
  have hr : ∀ m, m < N → 0 < raw N cutoff m := by
    intro m hm
    refine mul_pos (hamming_pos _ _) (sinc_pos ?_)
    rw [abs_mul, abs_of_nonneg h0]
    have e : |(m : ℝ) - (N / 2 : ℕ)| ≤ N / 2 := by
      rw [abs_le]
      have a : (N : ℝ) / 2 - 1 ≤ ((N / 2 : ℕ) : ℝ) - 1/2 := by
        have : N ≤ 2 * (N / 2) + 1 := by omega
        have : (N : ℝ) ≤ 2 * ((N / 2 : ℕ) : ℝ) + 1 := by exact_mod_cast this
        linarith
      have b : ((N / 2 : ℕ) : ℝ) ≤ N / 2 := Nat.cast_div_le
      have c : (m : ℝ) ≤ N - 1 := by
        have : m + 1 ≤ N := hm
        have : (m : ℝ) + 1 ≤ N := by exact_mod_cast this
        linarith
      have d : (0 : ℝ) ≤ m := Nat.cast_nonneg _
      constructor <;> linarith
    calc cutoff * |(m : ℝ) - (N / 2 : ℕ)| ≤ cutoff * (N / 2) := mul_le_mul_of_nonneg_left e h0
      _ < 1 := by linarith
  have ht : 0 < total N cutoff :=
    Finset.sum_pos (fun m hm => hr m (Finset.mem_range.1 hm)) ⟨0, Finset.mem_range.2 (by omega)⟩
  refine ⟨ht, fun m hm => ⟨div_pos (hr m hm) ht, ?_⟩⟩
  rw [firwin, div_le_one ht]
  exact Finset.single_le_sum (fun i hi => (hr i (Finset.mem_range.1 hi)).le) (Finset.mem_range.2 hm)

/-- The filter in use meets the hypotheses of `C80_positive`, hence of the gain theorems. -/
example : 2 ≤ 7 ∧ (0:ℝ) ≤ 0.1 ∧ (0.1:ℝ) * (7:ℕ) < 2 := by norm_num

/-- **C80 (symmetry, partial)** For an odd number of taps the coefficients are symmetric, so pulses are not
displaced. Missing: even numbers of taps. -/
theorem C80_symmetric_partial (a : ℕ) (ha : 0 < a) (cutoff : ℝ) (m : ℕ) (hm : m ≤ 2 * a) :
    firwin (2 * a + 1) cutoff (2 * a - m) = firwin (2 * a + 1) cutoff m := by
  have hh : hamming (2 * a + 1) (2 * a - m) = hamming (2 * a + 1) m := by
    unfold hamming
    have e : 2 * π * ((2 * a - m : ℕ) : ℝ) / (((2 * a + 1 : ℕ) : ℝ) - 1) =
        2 * π - 2 * π * m / (((2 * a + 1 : ℕ) : ℝ) - 1) := by
      rw [Nat.cast_sub hm]
      have : ((2 * a + 1 : ℕ) : ℝ) - 1 ≠ 0 := by
        push_cast
        have : (0 : ℝ) < a := by exact_mod_cast ha
        linarith
      field_simp
      push_cast
      ring
    rw [e, cos_two_pi_sub]
  have hs : sinc (cutoff * (((2 * a - m : ℕ) : ℝ) - ((2 * a + 1) / 2 : ℕ))) =
      sinc (cutoff * ((m : ℝ) - ((2 * a + 1) / 2 : ℕ))) := by
    rw [← sinc_neg]
    congr 1
    rw [Nat.cast_sub hm, show (2 * a + 1) / 2 = a by omega]
    push_cast
    ring
  rw [firwin, firwin, raw, raw, hh, hs]

/-- **C80 is false of the code** for an even number of taps: two taps with cutoff 1/2 are not equal. -/
theorem C80_even_counterexample : firwin 2 (1/2) 0 ≠ firwin 2 (1/2) 1 := by
  have h0 : raw 2 (1/2) 0 = 0.08 * (2 / π) := by
    have : sinc (1 / 2 * (((0 : ℕ) : ℝ) - (2 / 2 : ℕ))) = 2 / π := by
      unfold sinc
      norm_num
      rw [show π * (1 / 2) = π / 2 by ring, sin_pi_div_two]
      field_simp
    rw [raw, this, hamming]
    norm_num
  have h1 : raw 2 (1/2) 1 = 0.08 := by
    rw [raw, hamming, sinc]
    norm_num
  have ht : 0 < total 2 (1/2) := (C80_positive 2 (by norm_num) (1/2) (by norm_num) (by norm_num)).1
  rw [firwin, firwin, h0, h1]
  intro h
  rw [div_left_inj' ht.ne'] at h
  have : (2 : ℝ) / π < 1 := by rw [div_lt_one pi_pos]; linarith [pi_gt_three]
  nlinarith

theorem cround_eq {x : ℝ} {k : ℤ} (hk : 0 ≤ k) (h1 : (k : ℝ) - 1 / 2 < x) (h2 : x < k + 1 / 2) :
    cround x = k := by
  unfold cround
  have hk' : (0 : ℝ) ≤ k := by exact_mod_cast hk
  split
  · rw [Int.floor_eq_iff]; constructor <;> linarith
  · next hneg =>
    have hneg : x < 0 := not_le.1 hneg
    have : (k : ℝ) < 1 := by linarith
    have hk0 : k = 0 := by
      have : k < 1 := by exact_mod_cast this
      omega
    subst hk0
    have : ⌊-x + 1 / 2⌋ = 0 := by
      rw [Int.floor_eq_iff]; constructor <;> norm_num at * <;> linarith
    rw [this]; rfl

theorem cround_near (x : ℝ) : |(cround x : ℝ) - x| ≤ 1 / 2 := by
  unfold cround
  split
  · have a := Int.floor_le (x + 1 / 2); have b := Int.lt_floor_add_one (x + 1 / 2)
    rw [abs_le]; constructor <;> linarith
  · have a := Int.floor_le (-x + 1 / 2); have b := Int.lt_floor_add_one (-x + 1 / 2)
    push_cast
    rw [abs_le]; constructor <;> linarith

/-- **C80 (integer gain)** The integer taps sum to the multiplier up to half a unit per tap. -/
theorem C80_integer_gain (N : ℕ) (hN : 2 ≤ N) (cutoff : ℝ) (h : total N cutoff ≠ 0) (mult : ℕ) :
    |((∑ m ∈ Finset.range N, taps N cutoff mult m : ℤ) : ℝ) - mult| ≤ N / 2 := by
  have hg : ∑ m ∈ Finset.range N, (mult : ℝ) * firwin N cutoff m = mult := by
    exact (Finset.sum_congr rfl fun _ _ => mul_comm _ _).trans (C80_unit_gain N hN cutoff h mult)
  have e : ((∑ m ∈ Finset.range N, taps N cutoff mult m : ℤ) : ℝ) - mult =
      ∑ m ∈ Finset.range N, (((cround (mult * firwin N cutoff m) : ℤ) : ℝ) - mult * firwin N cutoff m) := by
    rw [Finset.sum_sub_distrib, hg]
    push_cast
    congr 1
    apply Finset.sum_congr rfl
    intro m hm
    rw [taps, tapsFrom, if_pos (Finset.mem_range.1 hm)]
  rw [e]
  calc _ ≤ ∑ m ∈ Finset.range N, |((cround (mult * firwin N cutoff m) : ℤ) : ℝ) - mult * firwin N cutoff m| :=
        Finset.abs_sum_le_sum_abs _ _
    _ ≤ ∑ _m ∈ Finset.range N, (1 / 2 : ℝ) := Finset.sum_le_sum fun m _ => cround_near _
    _ = N / 2 := by simp; ring

/-! ### The taps in use -/

theorem sqrt5 : 2.236 < √5 ∧ √5 < 2.2361 := by
  constructor
  · rw [lt_sqrt (by norm_num)]; norm_num
  · rw [sqrt_lt' (by norm_num)]; norm_num

theorem sin1 : 0.309 < sin (π / 10) ∧ sin (π / 10) < 0.309026 := by
  have h : sin (π / 10) = (√5 - 1) / 4 := by
    rw [← cos_pi_div_two_sub, show π / 2 - π / 10 = 2 * (π / 5) by ring, cos_two_mul, cos_pi_div_five]
    have : √5 ^ 2 = 5 := sq_sqrt (by norm_num)
    nlinarith
  rw [h]
  obtain ⟨a, b⟩ := sqrt5
  constructor <;> linarith

theorem sin3 : 0.809 < sin (3 * π / 10) ∧ sin (3 * π / 10) < 0.809026 := by
  have h : sin (3 * π / 10) = (1 + √5) / 4 := by
    rw [← cos_pi_div_two_sub, show π / 2 - 3 * π / 10 = π / 5 by ring, cos_pi_div_five]
  rw [h]
  obtain ⟨a, b⟩ := sqrt5
  constructor <;> linarith

theorem sin2 : 0.5877 < sin (π / 5) ∧ sin (π / 5) < 0.5879 := by
  have h : sin (π / 5) ^ 2 = 1 - ((1 + √5) / 4) ^ 2 := by
    rw [sin_sq, cos_pi_div_five]
  have hp : 0 < sin (π / 5) := sin_pos_of_pos_of_lt_pi (by positivity) (by linarith [pi_pos])
  obtain ⟨a, b⟩ := sqrt5
  have h5 : √5 ^ 2 = 5 := sq_sqrt (by norm_num)
  constructor
  · by_contra hc
    rw [not_lt] at hc
    nlinarith
  · by_contra hc
    rw [not_lt] at hc
    nlinarith

theorem sinc_val {k s : ℝ} (hk : 0 < k) (hs : sin (k * π / 10) = s) :
    sinc (k / 10) = s / (π * (k / 10)) := by
  unfold sinc
  rw [if_neg (by positivity), show π * (k / 10) = k * π / 10 by ring, hs]

/-- Bounds of a quotient. -/
theorem div_bounds {s p a b : ℝ} (hp : 0 < p) (h1 : a * p < s) (h2 : s < b * p) : a < s / p ∧ s / p < b :=
  ⟨by rwa [lt_div_iff₀ hp], by rwa [div_lt_iff₀ hp]⟩

theorem sinc1 : 0.983 < sinc (1/10) ∧ sinc (1/10) < 0.984 := by
  rw [sinc_val (k := 1) (s := sin (π / 10)) (by norm_num) (by rw [one_mul])]
  have h1 := pi_gt_d4; have h2 := pi_lt_d4
  obtain ⟨a, b⟩ := sin1
  exact div_bounds (by positivity) (by linarith) (by linarith)

theorem sinc2 : 0.935 < sinc (2/10) ∧ sinc (2/10) < 0.936 := by
  rw [sinc_val (k := 2) (s := sin (π / 5)) (by norm_num) (by congr 1; ring)]
  have h1 := pi_gt_d4; have h2 := pi_lt_d4
  obtain ⟨a, b⟩ := sin2
  exact div_bounds (by positivity) (by linarith) (by linarith)

theorem sinc3 : 0.858 < sinc (3/10) ∧ sinc (3/10) < 0.859 := by
  rw [sinc_val (k := 3) (s := sin (3 * π / 10)) (by norm_num) rfl]
  have h1 := pi_gt_d4; have h2 := pi_lt_d4
  obtain ⟨a, b⟩ := sin3
  exact div_bounds (by positivity) (by linarith) (by linarith)

theorem ham (n : ℕ) (c : ℝ) (h : cos (n * π / 3) = c) : hamming 7 n = 0.54 - 0.46 * c := by
  rw [hamming, ← h]
  congr 3
  push_cast
  ring

theorem raw7 : raw 7 (1/10) 0 = 0.08 * sinc (3/10) ∧ raw 7 (1/10) 1 = 0.31 * sinc (2/10) ∧
    raw 7 (1/10) 2 = 0.77 * sinc (1/10) ∧ raw 7 (1/10) 3 = 1 ∧ raw 7 (1/10) 4 = 0.77 * sinc (1/10) ∧
    raw 7 (1/10) 5 = 0.31 * sinc (2/10) ∧ raw 7 (1/10) 6 = 0.08 * sinc (3/10) := by
  have c2 : cos (2 * π / 3) = -(1/2) := by
    rw [show 2 * π / 3 = π - π / 3 by ring, cos_pi_sub, cos_pi_div_three]
  have h0 : hamming 7 0 = 0.08 := by rw [ham 0 1 (by simp)]; norm_num
  have h1 : hamming 7 1 = 0.31 := by rw [ham 1 (1/2) (by rw [Nat.cast_one, one_mul, cos_pi_div_three])]; norm_num
  have h2 : hamming 7 2 = 0.77 := by rw [ham 2 (-(1/2)) (by rw [Nat.cast_ofNat, c2])]; norm_num
  have h3 : hamming 7 3 = 1 := by
    rw [ham 3 (-1) (by rw [Nat.cast_ofNat, show (3:ℝ) * π / 3 = π by ring, cos_pi])]; norm_num
  have h4 : hamming 7 4 = 0.77 := by
    rw [ham 4 (-(1/2)) (by
      rw [Nat.cast_ofNat, show (4:ℝ) * π / 3 = 2 * π - 2 * π / 3 by ring, cos_two_pi_sub, c2])]
    norm_num
  have h5 : hamming 7 5 = 0.31 := by
    rw [ham 5 (1/2) (by
      rw [Nat.cast_ofNat, show (5:ℝ) * π / 3 = 2 * π - π / 3 by ring, cos_two_pi_sub, cos_pi_div_three])]
    norm_num
  have h6 : hamming 7 6 = 0.08 := by
    rw [ham 6 1 (by rw [Nat.cast_ofNat, show (6:ℝ) * π / 3 = 2 * π by ring, cos_two_pi])]; norm_num
  have s3 : sinc (-(3/10)) = sinc (3/10) := sinc_neg _
  have s2 : sinc (-(2/10)) = sinc (2/10) := sinc_neg _
  have s1 : sinc (-(1/10)) = sinc (1/10) := sinc_neg _
  have s0 : sinc 0 = 1 := by simp [sinc]
  refine ⟨?_, ?_, ?_, ?_, ?_, ?_, ?_⟩
  · rw [raw, h0, ← s3]; congr 2; norm_num
  · rw [raw, h1, ← s2]; congr 2; norm_num
  · rw [raw, h2, ← s1]; congr 2; norm_num
  · rw [raw, h3, one_mul, ← s0]; congr 1; norm_num
  · rw [raw, h4]; congr 2; norm_num
  · rw [raw, h5]; congr 2; norm_num
  · rw [raw, h6]; congr 2; norm_num

theorem total7 : 3.230 < total 7 (1/10) ∧ total 7 (1/10) < 3.234 := by
  obtain ⟨r0, r1, r2, r3, r4, r5, r6⟩ := raw7
  have : total 7 (1/10) = 1 + 2 * (0.77 * sinc (1/10) + 0.31 * sinc (2/10) + 0.08 * sinc (3/10)) := by
    rw [total]
    simp only [Finset.sum_range_succ, Finset.sum_range_zero, r0, r1, r2, r3, r4, r5, r6]
    ring
  rw [this]
  obtain ⟨a1, b1⟩ := sinc1; obtain ⟨a2, b2⟩ := sinc2; obtain ⟨a3, b3⟩ := sinc3
  constructor <;> linarith

/-- **C80 (taps in use)** The coefficients computed for seven taps, cutoff 0.1 and multiplier 64 (both
views), with any floating-point error of at most 1/10 in the scaled coefficients, are rounded to
1, 6, 15, 20, 15, 6, 1, followed by 0: the taps `fir` of the hit finder theorems. -/
theorem C80_taps (x : ℕ → ℝ) (hx : ∀ m, m < 7 → |x m - 64 * firwin 7 (1/10) m| ≤ 1/10) (i : ℕ) (hi : i < 8) :
    tapsFrom 7 x i = Tpg.fir i := by
  obtain ⟨r0, r1, r2, r3, r4, r5, r6⟩ := raw7
  obtain ⟨t1, t2⟩ := total7
  obtain ⟨a1, b1⟩ := sinc1; obtain ⟨a2, b2⟩ := sinc2; obtain ⟨a3, b3⟩ := sinc3
  have ht : 0 < total 7 (1/10) := by linarith
  have key : ∀ (m : ℕ) (k : ℤ), m < 7 → 0 ≤ k → ((k : ℝ) - 4 / 10) * total 7 (1/10) < 64 * raw 7 (1/10) m →
      64 * raw 7 (1/10) m < ((k : ℝ) + 4 / 10) * total 7 (1/10) → tapsFrom 7 x m = k := by
    intro m k hm hk h1 h2
    rw [tapsFrom, if_pos hm]
    have e : 64 * firwin 7 (1/10) m = 64 * raw 7 (1/10) m / total 7 (1/10) := by rw [firwin]; ring
    have hb := abs_le.1 (hx m hm)
    rw [e] at hb
    obtain ⟨g1, g2⟩ := div_bounds ht h1 h2
    exact cround_eq hk (by linarith) (by linarith)
  have hc : i = 0 ∨ i = 1 ∨ i = 2 ∨ i = 3 ∨ i = 4 ∨ i = 5 ∨ i = 6 ∨ i = 7 := by omega
  rcases hc with rfl | rfl | rfl | rfl | rfl | rfl | rfl | rfl
  · exact key 0 1 (by norm_num) (by norm_num) (by rw [r0]; push_cast; linarith) (by rw [r0]; push_cast; linarith)
  · exact key 1 6 (by norm_num) (by norm_num) (by rw [r1]; push_cast; linarith) (by rw [r1]; push_cast; linarith)
  · exact key 2 15 (by norm_num) (by norm_num) (by rw [r2]; push_cast; linarith) (by rw [r2]; push_cast; linarith)
  · exact key 3 20 (by norm_num) (by norm_num) (by rw [r3]; push_cast; linarith) (by rw [r3]; push_cast; linarith)
  · exact key 4 15 (by norm_num) (by norm_num) (by rw [r4]; push_cast; linarith) (by rw [r4]; push_cast; linarith)
  · exact key 5 6 (by norm_num) (by norm_num) (by rw [r5]; push_cast; linarith) (by rw [r5]; push_cast; linarith)
  · exact key 6 1 (by norm_num) (by norm_num) (by rw [r6]; push_cast; linarith) (by rw [r6]; push_cast; linarith)
  · rfl

/-- In exact arithmetic in particular, and they sum to the multiplier. -/
theorem C80_taps_exact : (∀ i, i < 8 → taps 7 (1/10) 64 i = Tpg.fir i) ∧
    ∑ i ∈ Finset.range 8, taps 7 (1/10) 64 i = 64 := by
  have h : ∀ i, i < 8 → taps 7 (1/10) 64 i = Tpg.fir i := fun i hi => C80_taps _ (by intro m _; simp) i hi
  refine ⟨h, ?_⟩
  rw [Finset.sum_congr rfl fun i hi => h i (Finset.mem_range.1 hi)]
  decide

end Verif.Fir
