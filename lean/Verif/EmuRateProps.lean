import Verif.EmuRateModel
import Verif.EmuProps
import Verif.MiscProps
import Mathlib.Tactic.Linarith
import Mathlib.Tactic.FieldSimp
/- Property C113: emulated links run at the configured rate and clock. -/
namespace Verif.EmuRate
open Verif.Misc (RL limit rlInit)

/-! ### Specification vocabulary -/

/-- From iteration `i` on the loop is fast: creating and handing over a payload takes at most `W`, and a call of the limiter
returns at most `G` after it was called or after the deadline, whichever is later. -/
def Prompt {P O : Nat} (e : Loop P O) (W G i : Nat) : Prop :=
  ∀ k, i ≤ k → e.c k ≤ e.r k + W ∧ e.r (k + 1) ≤ max (e.c k) (e.s k).deadline + G

/-- A rounding at least as accurate as `double`, by far. -/
def Accurate (rnd : ℚ → ℚ) : Prop := ∀ x, 0 < x → x * (1 - 1 / 10000) ≤ rnd x ∧ rnd x ≤ x * (1 + 1 / 10000)

/-! ### Pace -/

theorem now_le {P O : Nat} (e : Loop P O) (k : Nat) : (e.s k).now ≤ e.r k := (Misc.deadline_le P O e.toExec k).2

/-- **C113 (catching up)** Suppose that iteration `i` begins `L` late, by a stall of any kind, but not more than the limiter's
allowance of 10 ms and a period. If the loop is fast again, then no payload is lost: iteration `i + j` begins at its time on the
original schedule plus what is left of the delay, which shrinks in every iteration by what the loop has to spare. -/
theorem C113_catch_up {P O : Nat} (e : Loop P O) (W G i L : Nat) (hp : Prompt e W G i) (hw : W + G ≤ P)
    (hL : e.r i + P ≤ (e.s i).deadline + L) (hO : L ≤ P + O) (hG : G ≤ P + O) (j : Nat) :
    (e.s (i + j)).deadline = (e.s i).deadline + j * P ∧
    e.r (i + j) + P ≤ (e.s i).deadline + j * P + max G (L - j * (P - W - G)) := by
  induction j with
  | zero => refine ⟨by simp, ?_⟩; simp only [Nat.add_zero, Nat.zero_mul, Nat.sub_zero]; omega
  | succ j ih =>
    obtain ⟨h1, h2⟩ := ih
    have hn := now_le e (i + j)
    obtain ⟨p1, p2⟩ := hp (i + j) (by omega)
    have hs : (j + 1) * P = j * P + P := Nat.succ_mul j P
    have hs' : (j + 1) * (P - W - G) = j * (P - W - G) + (P - W - G) := Nat.succ_mul _ _
    generalize j * P = a at *
    generalize j * (P - W - G) = b at *
    refine ⟨?_, ?_⟩
    · rw [show i + (j + 1) = i + j + 1 from rfl, e.step (i + j)]
      unfold limit
      rw [if_neg (by omega)]
      split
      · show _ + P = _; omega
      · show _ + P = _; omega
    · rw [show i + (j + 1) = i + j + 1 from rfl]
      omega

theorem not_early {P O : Nat} (e : Loop P O) (k : Nat) (h : ¬ (e.s k).now > (e.s k).deadline + O) :
    (e.s k).deadline ≤ e.r (k + 1) := by
  by_cases hc : (e.s k).now < (e.s k).deadline
  · have := e.reading k h hc; omega
  · have := now_le e k; have := e.mono k; omega

/-- **C113 (on time)** If the loop is fast (one iteration and one return of the limiter within a period) iteration `k` begins `k`
periods after the start: never earlier, and never later than it was at the start or than the limiter's delay. Nothing adds up. -/
theorem C113_on_time {P O : Nat} (e : Loop P O) (W G L : Nat) (hp : Prompt e W G 0) (hw : W + G ≤ P)
    (hL : e.r 0 ≤ e.t 0 + L) (hG : G ≤ L) (hO : L ≤ P + O) (k : Nat) :
    e.t 0 + k * P ≤ e.r k ∧ e.r k ≤ e.t 0 + k * P + L := by
  have h0 : (e.s 0).deadline = e.t 0 + P := by rw [e.start.1]; rfl
  have key : ∀ k, (e.s k).deadline = e.t 0 + P + k * P ∧ e.r k ≤ e.t 0 + k * P + L := by
    intro k
    obtain ⟨h1, h2⟩ := C113_catch_up e W G 0 L hp hw (by rw [h0]; omega) hO (by omega) k
    rw [Nat.zero_add, h0] at h1 h2
    refine ⟨h1, ?_⟩
    have : max G (L - k * (P - W - G)) ≤ L := by omega
    omega
  refine ⟨?_, (key k).2⟩
  cases k with
  | zero => have := e.start.2; omega
  | succ k =>
    obtain ⟨h1, h2⟩ := key k
    have := not_early e k (by have := now_le e k; omega)
    rw [h1] at this
    rw [Nat.succ_mul]
    omega

/-- A loop whose iterations take no time: iteration `k` begins at `k` periods. -/
def steady (P O : Nat) : Loop P O where
  s := fun k => ⟨k * P, k * P + P⟩
  r := fun k => k * P
  t := fun k => k * P
  start := by
    refine ⟨?_, Nat.le_refl _⟩
    show (⟨0 * P, 0 * P + P⟩ : RL) = ⟨0 * P, 0 * P + P⟩
    rfl
  mono := by intro k; exact Nat.mul_le_mul_right _ (by omega)
  step := by
    intro k
    have h : (k + 1) * P = k * P + P := Nat.succ_mul k P
    unfold limit
    simp only
    rw [if_neg (by omega), h]
    split
    · rfl
    · have : P = 0 := by omega
      subst this; rfl
  reading := by
    intro k _ _
    have h : (k + 1) * P = k * P + P := Nat.succ_mul k P
    simp only
    omega
  c := fun k => k * P
  order := by
    intro k
    exact ⟨Nat.le_refl _, Nat.mul_le_mul_right _ (by omega)⟩

theorem steady_prompt (P O : Nat) : Prompt (steady P O) 0 0 0 := by
  intro k _
  have h : (k + 1) * P = k * P + P := Nat.succ_mul k P
  show k * P ≤ k * P + 0 ∧ (k + 1) * P ≤ max (k * P) (k * P + P) + 0
  omega

/-- Non-vacuity. -/
example : Prompt (steady 6024 overshoot) 0 0 0 ∧ (steady 6024 overshoot).t 0 = 0 ∧ (steady 6024 overshoot).r 0 = 0 ∧
    (steady 6024 overshoot).r 1000 = 6024000 := ⟨steady_prompt _ _, rfl, rfl, rfl⟩

/-- A loop with the period of an emulated WIB link and one stall of 20 ms in the first iteration. -/
def stalled : Loop 6024 overshoot where
  s := fun k => match k with
    | 0 => ⟨0, 6024⟩
    | 1 => ⟨20000000, 12048⟩
    | k + 2 => ⟨20000000 + 6024 * k, 20000000 + 6024 * k + 6024⟩
  r := fun k => match k with
    | 0 => 0
    | 1 => 20000000
    | k + 2 => 20000000 + 6024 * k
  t := fun k => match k with
    | 0 => 0
    | 1 => 20000000
    | k + 2 => 20000000 + 6024 * k
  start := ⟨rfl, Nat.le_refl _⟩
  mono := by
    intro k
    match k with
    | 0 => decide
    | 1 => decide
    | k + 2 => show 20000000 + 6024 * k ≤ 20000000 + 6024 * (k + 1); omega
  step := by
    intro k
    match k with
    | 0 => decide
    | 1 => decide
    | k + 2 =>
      show (⟨20000000 + 6024 * (k + 1), 20000000 + 6024 * (k + 1) + 6024⟩ : RL) = limit 6024 overshoot
        ⟨20000000 + 6024 * k, 20000000 + 6024 * k + 6024⟩ (20000000 + 6024 * (k + 1))
      unfold limit overshoot
      simp only
      rw [if_neg (by omega), if_pos (by omega)]
      have : 6024 * (k + 1) = 6024 * k + 6024 := by omega
      rw [this, ← Nat.add_assoc]
  reading := by
    intro k
    match k with
    | 0 => intro _ _; decide
    | 1 => intro h; exact absurd (by decide) h
    | k + 2 =>
      intro _ _
      show 20000000 + 6024 * k ≤ 20000000 + 6024 * (k + 1) ∧ 20000000 + 6024 * (k + 1) ≤ 20000000 + 6024 * (k + 1) ∧
        20000000 + 6024 * k + 6024 ≤ 20000000 + 6024 * (k + 1)
      omega
  c := fun k => match k with
    | 0 => 20000000
    | 1 => 20000000
    | k + 2 => 20000000 + 6024 * k
  order := by
    intro k
    match k with
    | 0 => decide
    | 1 => decide
    | k + 2 =>
      show 20000000 + 6024 * k ≤ 20000000 + 6024 * k ∧ 20000000 + 6024 * k ≤ 20000000 + 6024 * (k + 1)
      omega

/-- **C113 is false of the code after longer stalls**: a single stall of 20 ms, after which the loop is as fast as can be, is never
made up; every later iteration of an emulated WIB link is 3318 periods late. -/
theorem C113_stall_counterexample : Prompt stalled 0 0 1 ∧
    ∀ k, 2 ≤ k → stalled.t 0 + k * 6024 + 3318 * 6024 ≤ stalled.r k := by
  constructor
  · intro k hk
    match k, hk with
    | 1, _ => decide
    | k + 2, _ =>
      show 20000000 + 6024 * k ≤ 20000000 + 6024 * k + 0 ∧ 20000000 + 6024 * (k + 1) ≤
        max (20000000 + 6024 * k) (20000000 + 6024 * k + 6024) + 0
      omega
  · intro k hk
    match k, hk with
    | k + 2, _ =>
      show 0 + (k + 2) * 6024 + 3318 * 6024 ≤ 20000000 + 6024 * k
      omega

/-! ### Period -/

theorem period_bounds {rnd : ℚ → ℚ} (hr : Accurate rnd) (k slow : ℚ) (hk : 0 < k) (hs : 0 < slow) :
    1000000 * slow / k * (1 - 4 / 10000) - 1 < period rnd k slow ∧
    (period rnd k slow : ℚ) ≤ 1000000 * slow / k * (1 + 4 / 10000) := by
  unfold period
  have h0 : 0 < k / slow := div_pos hk hs
  obtain ⟨a1, a2⟩ := hr _ h0
  have ha : 0 < rnd (k / slow) := lt_of_lt_of_le (mul_pos h0 (by norm_num)) a1
  obtain ⟨b1, b2⟩ := hr (1000 / rnd (k / slow)) (div_pos (by norm_num) ha)
  have hb : 0 < rnd (1000 / rnd (k / slow)) := lt_of_lt_of_le (mul_pos (div_pos (by norm_num) ha) (by norm_num)) b1
  obtain ⟨c1, c2⟩ := hr (rnd (1000 / rnd (k / slow)) * 1000) (mul_pos hb (by norm_num))
  have hx : 0 < 1000 * slow / k := div_pos (mul_pos (by norm_num) hs) hk
  have e : 1000 / (k / slow) = 1000 * slow / k := by field_simp
  -- the inner quotient
  have q1 : 1000 * slow / k / (1 + 1 / 10000) ≤ 1000 / rnd (k / slow) := by
    rw [← e, div_div]
    exact div_le_div_of_nonneg_left (by norm_num) ha a2
  have q2 : 1000 / rnd (k / slow) ≤ 1000 * slow / k / (1 - 1 / 10000) := by
    rw [← e, div_div]
    exact div_le_div_of_nonneg_left (by norm_num) (mul_pos h0 (by norm_num)) a1
  have e2 : 1000000 * slow / k = 1000 * slow / k * 1000 := by ring
  rw [e2]
  generalize 1000 * slow / k = x at *
  have q1' : x * (1 - 11 / 100000) ≤ 1000 / rnd (k / slow) := by
    refine le_trans ?_ q1
    rw [le_div_iff₀ (by norm_num)]
    nlinarith
  have q2' : 1000 / rnd (k / slow) ≤ x * (1 + 11 / 100000) := by
    refine le_trans q2 ?_
    rw [div_le_iff₀ (by norm_num)]
    nlinarith
  generalize 1000 / rnd (k / slow) = y at *
  generalize hz : rnd (rnd y * 1000) = z at *
  have z1 : x * 1000 * (1 - 4 / 10000) ≤ z := by nlinarith
  have z2 : z ≤ x * 1000 * (1 + 4 / 10000) := by nlinarith
  have hz0 : 0 ≤ z := by nlinarith
  constructor
  · have := Nat.lt_floor_add_one z
    push_cast at this
    linarith
  · exact le_trans (Nat.floor_le hz0) z2

theorem period_wib {rnd : ℚ → ℚ} (hr : Accurate rnd) (slow : ℚ) (hs : 1 ≤ slow) :
    6000 * slow ≤ period rnd 166 slow ∧ (period rnd 166 slow : ℚ) ≤ 6030 * slow := by
  obtain ⟨h1, h2⟩ := period_bounds hr 166 slow (by norm_num) (by linarith)
  constructor
  · refine le_of_lt (lt_of_le_of_lt ?_ h1)
    linarith
  · refine le_trans h2 ?_
    linarith

theorem period_pds {rnd : ℚ → ℚ} (hr : Accurate rnd) (slow : ℚ) (hs : 1 ≤ slow) :
    4990 * slow ≤ period rnd 200 slow ∧ (period rnd 200 slow : ℚ) ≤ 5010 * slow := by
  obtain ⟨h1, h2⟩ := period_bounds hr 200 slow (by norm_num) (by linarith)
  constructor
  · refine le_of_lt (lt_of_le_of_lt ?_ h1)
    linarith
  · refine le_trans h2 ?_
    linarith

/-- Without rounding: 6024 ns at 166 kHz. -/
example : period id 166 1 = 6024 ∧ period id 200 1 = 5000 ∧ Accurate id := by
  refine ⟨?_, ?_, ?_⟩
  · unfold period; simp only [id]; rw [Nat.floor_eq_iff (by norm_num)]; norm_num
  · unfold period; simp only [id]; rw [Nat.floor_eq_iff (by norm_num)]; norm_num
  · intro x hx; simp only [id]; constructor <;> nlinarith

/-! ### Clock -/

/-- Payload `k` of an emulator without dropouts. -/
theorem payload_time (c : Emu.Cfg) (t0 : Nat) (hs : 0 < c.sz) (hl : c.sz ≤ c.source.length) (hd : c.drops = [true]) (k : Nat)
    (hb : t0 + k * (c.tick * 12) < 18446744073709551616) :
    ∃ s b, Emu.run c t0 (k + 1) = .ok s ∧ s.out[k]? = some (b, t0 + k * (c.tick * 12)) := by
  obtain ⟨s, h1, -, h3⟩ := Emu.C47_no_dropout c t0 hs hl (by rw [hd]; rfl) (by omega) (k + 1)
  have := h3 k (by omega)
  rw [show Search.u64 (t0 + k * (c.tick * 12)) = t0 + k * (c.tick * 12) from Nat.mod_eq_of_lt hb] at this
  exact ⟨s, _, h1, this⟩

/-- **C113 (clock of WIB links, partial)** The times in the payloads of an emulated WIB link keep up with a clock of 50 MHz divided by
the slowdown factor, which is what the configuration generator assumes: at the time payload `k` is made, the time since the first
one is at least what the payloads' times say and at most half a percent more, plus a fixed delay. For all slowdown factors from 1
on, all roundings at least as accurate as `double`, as long as the loop is fast. -/
theorem C113_wib_clock_partial (rnd : ℚ → ℚ) (hr : Accurate rnd) (slow : ℚ) (hs : 1 ≤ slow)
    (e : Loop (period rnd (khz .wib) slow) overshoot) (W G L : Nat) (hp : Prompt e W G 0)
    (hw : W + G ≤ period rnd (khz .wib) slow) (hL : e.r 0 ≤ e.t 0 + L) (hG : G ≤ L)
    (hO : L ≤ period rnd (khz .wib) slow + 10000000)
    (c : Emu.Cfg) (hc : c.tick = tick .wib) (t0 : Nat) (hsz : 0 < c.sz) (hl : c.sz ≤ c.source.length) (hd : c.drops = [true])
    (k : Nat) (hb : t0 + k * 300 < 18446744073709551616) :
    ∃ s b t, Emu.run c t0 (k + 1) = .ok s ∧ s.out[k]? = some (b, t) ∧
      ((t : ℚ) - t0) * (20 * slow) ≤ (e.r k : ℚ) - e.t 0 ∧
      (e.r k : ℚ) - e.t 0 ≤ ((t : ℚ) - t0) * (20 * slow) * (1 + 1 / 200) + L := by
  have htk : c.tick * 12 = 300 := by rw [hc]; rfl
  obtain ⟨s, b, h1, h2⟩ := payload_time c t0 hsz hl hd k (by rw [htk]; exact hb)
  obtain ⟨g1, g2⟩ := C113_on_time e W G L hp hw hL hG hO k
  obtain ⟨p1, p2⟩ := period_wib hr slow hs
  refine ⟨s, b, _, h1, h2, ?_⟩
  rw [htk]
  have g1' : (e.t 0 : ℚ) + k * (period rnd (khz .wib) slow : ℚ) ≤ e.r k := by exact_mod_cast g1
  have g2' : (e.r k : ℚ) ≤ e.t 0 + k * (period rnd (khz .wib) slow : ℚ) + L := by exact_mod_cast g2
  have hk : (0 : ℚ) ≤ k := Nat.cast_nonneg k
  change 6000 * slow ≤ (period rnd (khz .wib) slow : ℚ) at p1
  change (period rnd (khz .wib) slow : ℚ) ≤ 6030 * slow at p2
  push_cast
  have m1 := mul_le_mul_of_nonneg_left p1 hk
  have m2 := mul_le_mul_of_nonneg_left p2 hk
  constructor
  · nlinarith
  · nlinarith

/-- **C113 is false of emulated WIB2 links**: against the 50 MHz of the configuration generator their data time runs ahead by more than a
quarter; even against the detector's own 62.5 MHz (ticks of 16 ns) it runs ahead, by more than one and a half percent. -/
theorem C113_wib2_clock_counterexample (rnd : ℚ → ℚ) (hr : Accurate rnd) (slow : ℚ) (hs : 1 ≤ slow)
    (e : Loop (period rnd (khz .wib2) slow) overshoot) (W G L : Nat) (hp : Prompt e W G 0)
    (hw : W + G ≤ period rnd (khz .wib2) slow) (hL : e.r 0 ≤ e.t 0 + L) (hG : G ≤ L)
    (hO : L ≤ period rnd (khz .wib2) slow + 10000000)
    (c : Emu.Cfg) (hc : c.tick = tick .wib2) (t0 : Nat) (hsz : 0 < c.sz) (hl : c.sz ≤ c.source.length) (hd : c.drops = [true])
    (k : Nat) (hb : t0 + k * 384 < 18446744073709551616) :
    ∃ s b t, Emu.run c t0 (k + 1) = .ok s ∧ s.out[k]? = some (b, t) ∧
      ((e.r k : ℚ) - e.t 0) * (5 / 4) ≤ ((t : ℚ) - t0) * (20 * slow) + 5 / 4 * L ∧
      ((e.r k : ℚ) - e.t 0) * (1 + 3 / 200) ≤ ((t : ℚ) - t0) * (16 * slow) + 203 / 200 * L := by
  have htk : c.tick * 12 = 384 := by rw [hc]; rfl
  obtain ⟨s, b, h1, h2⟩ := payload_time c t0 hsz hl hd k (by rw [htk]; exact hb)
  obtain ⟨g1, g2⟩ := C113_on_time e W G L hp hw hL hG hO k
  obtain ⟨p1, p2⟩ := period_wib hr slow hs
  refine ⟨s, b, _, h1, h2, ?_⟩
  rw [htk]
  have g2' : (e.r k : ℚ) ≤ e.t 0 + k * (period rnd (khz .wib2) slow : ℚ) + L := by exact_mod_cast g2
  have hk : (0 : ℚ) ≤ k := Nat.cast_nonneg k
  change (period rnd (khz .wib2) slow : ℚ) ≤ 6030 * slow at p2
  push_cast
  have m2 := mul_le_mul_of_nonneg_left p2 hk
  have m3 : 0 ≤ (k : ℚ) * slow := mul_nonneg hk (by linarith)
  constructor
  · nlinarith
  · nlinarith

/-- **C113 is false of emulated photon-detector links**: their data time covers less than two thirds of the time that passes, by the
detector's 62.5 MHz, and less than four fifths by the configuration generator's 50 MHz. (The dropouts, nine in ten, only
thin out the payloads; the loop's time step is the same.) -/
theorem C113_pds_clock_counterexample (rnd : ℚ → ℚ) (hr : Accurate rnd) (slow : ℚ) (hs : 1 ≤ slow)
    (e : Loop (period rnd (khz .pds) slow) overshoot) (W G L : Nat) (hp : Prompt e W G 0)
    (hw : W + G ≤ period rnd (khz .pds) slow) (hL : e.r 0 ≤ e.t 0 + L) (hG : G ≤ L)
    (hO : L ≤ period rnd (khz .pds) slow + 10000000)
    (c : Emu.Cfg) (hc : c.tick = tick .pds) (t0 : Nat) (hsz : 0 < c.sz) (hl : c.sz ≤ c.source.length) (hd : c.drops ≠ [])
    (k : Nat) (hb : t0 + k * 192 < 18446744073709551616) :
    ∃ s, Emu.run c t0 k = .ok s ∧
      ((s.ts : ℚ) - t0) * (16 * slow) ≤ 2 / 3 * ((e.r k : ℚ) - e.t 0) ∧
      ((s.ts : ℚ) - t0) * (20 * slow) ≤ 4 / 5 * ((e.r k : ℚ) - e.t 0) := by
  have htk : c.tick * 12 = 192 := by rw [hc]; rfl
  obtain ⟨s, h1, h2⟩ := Emu.run_inv c t0 hsz hl hd (by omega) k
  obtain ⟨g1, g2⟩ := C113_on_time e W G L hp hw hL hG hO k
  obtain ⟨p1, p2⟩ := period_pds hr slow hs
  have hts : s.ts = t0 + k * 192 := by
    rw [h2.ts, htk]; exact Nat.mod_eq_of_lt hb
  refine ⟨s, h1, ?_⟩
  rw [hts]
  have g1' : (e.t 0 : ℚ) + k * (period rnd (khz .pds) slow : ℚ) ≤ e.r k := by exact_mod_cast g1
  have hk : (0 : ℚ) ≤ k := Nat.cast_nonneg k
  change 4990 * slow ≤ (period rnd (khz .pds) slow : ℚ) at p1
  push_cast
  have m1 := mul_le_mul_of_nonneg_left p1 hk
  have m3 : 0 ≤ (k : ℚ) * slow := mul_nonneg hk (by linarith)
  constructor
  · nlinarith
  · nlinarith

/-- Non-vacuity of the hypotheses of the three: loops and files as required, for every front end. -/
example (f : Front) : ∃ (e : Loop (period id (khz f) 1) overshoot) (c : Emu.Cfg), Accurate id ∧ Prompt e 0 0 0 ∧
    0 + 0 ≤ period id (khz f) 1 ∧ e.r 0 ≤ e.t 0 + 0 ∧ 0 ≤ period id (khz f) 1 + 10000000 ∧ c.tick = tick f ∧ 0 < c.sz ∧
    c.sz ≤ c.source.length ∧ c.drops = [true] :=
  ⟨steady _ _, ⟨[1, 2], 2, tick f, [true]⟩, by intro x hx; simp only [id]; constructor <;> nlinarith, steady_prompt _ _,
    Nat.zero_le _, Nat.le_refl _, Nat.zero_le _, rfl, by simp, by simp, rfl⟩

end Verif.EmuRate
