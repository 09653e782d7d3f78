import Verif.TpgModel

/-!
# Lemmas about the hit finders

The vectorised hit finder is decomposed into sixteen independent scalar machines (`laneRun`).
The decomposition holds for states satisfying `Good`, an invariant of the pedestal tracking.
-/

namespace Verif.Tpg

theorem w16_id {x : Int} (h1 : -32768 ≤ x) (h2 : x ≤ 32767) : w16 x = x := by
  unfold w16; omega

theorem w16_range (x : Int) : -32768 ≤ w16 x ∧ w16 x ≤ 32767 := by unfold w16; omega

theorem sat16_id {x : Int} (h1 : -32768 ≤ x) (h2 : x ≤ 32767) : sat16 x = x := by
  unfold sat16; omega

theorem w16_add_left (a b : Int) : w16 (w16 a + b) = w16 (a + b) := by unfold w16; omega
theorem w16_add_right (a b : Int) : w16 (a + w16 b) = w16 (a + b) := by unfold w16; omega

/-- What the tracking keeps true of a channel fed with 12-bit samples. -/
structure Good (p : Ped) : Prop where
  med : 0 ≤ p.med ∧ p.med ≤ 4095
  q25 : -3 ≤ p.q25 ∧ p.q25 ≤ 4095
  q75 : 0 ≤ p.q75 ∧ p.q75 ≤ 4098
  acc : -10 ≤ p.acc ∧ p.acc ≤ 10
  acc25 : -10 ≤ p.acc25 ∧ p.acc25 ≤ 10
  acc75 : -10 ≤ p.acc75 ∧ p.acc75 ≤ 10
  low : 11 * p.q25 + p.acc25 - (11 * p.med + p.acc) ≤ 10
  high : 11 * p.med + p.acc - (11 * p.q75 + p.acc75) ≤ 10
  below : p.q25 ≤ p.med + 1
  above : p.med ≤ p.q75 + 1
  order : p.q25 ≤ p.q75
  len : p.prev.length = 8

theorem frugal_eq {m s acc : Int} (h1 : -100 ≤ m) (h2 : m ≤ 5000) (h3 : -10 ≤ acc) (h4 : acc ≤ 10) :
    frugal m s acc 10
      = if m < s then (if acc = 10 then (m + 1, 0) else (m, acc + 1))
        else if s < m then (if acc = -10 then (m - 1, 0) else (m, acc - 1))
        else (m, acc) := by
  unfold frugal
  dsimp only
  have e1 : w16 (acc + 1) = acc + 1 := w16_id (by omega) (by omega)
  have e2 : w16 (acc - 1) = acc - 1 := w16_id (by omega) (by omega)
  have e3 : w16 (m + 1) = m + 1 := w16_id (by omega) (by omega)
  have e4 : w16 (m - 1) = m - 1 := w16_id (by omega) (by omega)
  rw [e1, e3]
  by_cases c1 : m < s
  · have c2 : ¬ s < m := by omega
    simp only [c1, c2, if_true, if_false]
    by_cases c3 : acc = 10
    · subst c3; simp
    · have d1 : ¬ (10 : Int) < acc + 1 := by omega
      have d2 : ¬ acc + 1 < -10 := by omega
      simp [c3, d1, d2]
  · simp only [c1, if_false]
    by_cases c2 : s < m
    · simp only [c2, if_true, e2]
      have c4 : ¬ (10 : Int) < acc - 1 := by omega
      simp only [c4, if_false]
      by_cases c3 : acc = -10
      · subst c3; simp [e4]
      · have : ¬ acc - 1 < -10 := by omega
        simp [this, c3]
    · simp only [c2, if_false]
      have c4 : ¬ (10 : Int) < acc := by omega
      have c5 : ¬ acc < -10 := by omega
      simp [c4, c5]

theorem good_track {p : Ped} {s : Int} (h : Good p) (h0 : 0 ≤ s) (h1 : s ≤ 4095) :
    Good (naiveTrack p s) := by
  obtain ⟨⟨a1, a2⟩, ⟨b1, b2⟩, ⟨c1, c2⟩, ⟨d1, d2⟩, ⟨e1, e2⟩, ⟨f1, f2⟩, g1, g2, k1, k2, k3, k4⟩ := h
  have r := @frugal_eq p.med s p.acc (by omega) (by omega) d1 d2
  have r25 := @frugal_eq p.q25 s p.acc25 (by omega) (by omega) e1 e2
  have r75 := @frugal_eq p.q75 s p.acc75 (by omega) (by omega) f1 f2
  by_cases l1 : p.med < s
  · have l2 : ¬ s < p.med := by omega
    simp only [l1, l2, if_true, if_false] at r
    unfold naiveTrack accLimit
    simp only [l1, l2, if_true, if_false, r, r75]
    constructor <;> (try dsimp only) <;> (try split) <;> (try split) <;> (try split) <;> (try split) <;> (try split) <;>
      (try dsimp only) <;> (try omega)
  · by_cases l2 : s < p.med
    · simp only [l1, l2, if_true, if_false] at r
      unfold naiveTrack accLimit
      simp only [l1, l2, if_true, if_false, r, r25]
      constructor <;> (try dsimp only) <;> (try split) <;> (try split) <;> (try split) <;> (try split) <;> (try split) <;>
        (try dsimp only) <;> (try omega)
    · simp only [l1, l2, if_false] at r
      unfold naiveTrack accLimit
      simp only [l1, l2, if_false, r]
      exact ⟨⟨a1, a2⟩, ⟨b1, b2⟩, ⟨c1, c2⟩, ⟨d1, d2⟩, ⟨e1, e2⟩, ⟨f1, f2⟩, g1, g2, k1, k2, k3, k4⟩

theorem good_ped {taps : Nat → Int} {abs : Nat} {p : Ped} {x : Int} (h : Good p) (h0 : 0 ≤ x)
    (h1 : x ≤ 4095) : Good (naivePed taps abs p x).1 := by
  have hx : w16 x = x := w16_id (by omega) (by omega)
  unfold naivePed
  dsimp only
  rw [hx]
  have g := good_track h h0 h1
  exact { g with len := by simp [h.len] }

/-- The value `sigma` of the scalar code: the distance of the quartile estimates, never negative. -/
theorem sigma_eq {taps : Nat → Int} {abs : Nat} {p : Ped} {x : Int} (h : Good p) (h0 : 0 ≤ x)
    (h1 : x ≤ 4095) :
    (naivePed taps abs p x).2.2 = (naivePed taps abs p x).1.q75 - (naivePed taps abs p x).1.q25
      ∧ 0 ≤ (naivePed taps abs p x).2.2 ∧ (naivePed taps abs p x).2.2 ≤ 4101 := by
  have g := good_ped (taps := taps) (abs := abs) h h0 h1
  have e : (naivePed taps abs p x).2.2
      = w16 ((naivePed taps abs p x).1.q75 - (naivePed taps abs p x).1.q25) := rfl
  have := g.q25; have := g.q75; have := g.order
  rw [e, w16_id (by omega) (by omega)]
  omega

theorem good_start {x : Int} (h0 : 0 ≤ x) (h1 : x ≤ 4095) : Good (Ped.start x) := by
  have hx : w16 x = x := w16_id (by omega) (by omega)
  have h3 : w16 (x - 3) = x - 3 := w16_id (by omega) (by omega)
  have h4 : w16 (x + 3) = x + 3 := w16_id (by omega) (by omega)
  unfold Ped.start
  rw [hx, h3, h4]
  constructor <;> (try dsimp only) <;> (try omega)
  simp

/-! ## One lane of a register -/

/-- One lane of the tracking state. -/
def VPed.lane (p : VPed) (i : Nat) : Ped :=
  ⟨p.med i, p.q25 i, p.q75 i, p.acc i, p.acc25 i, p.acc75 i, p.prev.map (fun r => r i)⟩

/-- One lane of the hit state. -/
def VHit.lane (h : VHit) (i : Nat) : HitSt := ⟨decide (h.over i ≠ 0), h.charge i, h.tover i⟩

theorem vFrugal_on {m s acc mask : Reg} {i : Nat} (hm : mask i = -1) (h1 : -100 ≤ m i)
    (h2 : m i ≤ 5000) (h3 : -10 ≤ acc i) (h4 : acc i ≤ 10) :
    ((vFrugal m s acc 10 mask).1 i, (vFrugal m s acc 10 mask).2 i) = frugal (m i) (s i) (acc i) 10 := by
  rw [frugal_eq h1 h2 h3 h4]
  have e0 : w16 (acc i) = acc i := w16_id (by omega) (by omega)
  have e1 : w16 (acc i + 1) = acc i + 1 := w16_id (by omega) (by omega)
  have e2 : w16 (acc i + -1) = acc i - 1 := by rw [w16_id (by omega) (by omega)]; omega
  have e3 : sat16 (m i + 1) = m i + 1 := sat16_id (by omega) (by omega)
  have e4 : sat16 (m i + -1) = m i - 1 := by rw [sat16_id (by omega) (by omega)]; omega
  have e5 : sat16 (m i) = m i := sat16_id (by omega) (by omega)
  have e6 : w16 (-(acc i)) = -(acc i) := w16_id (by omega) (by omega)
  have e7 : w16 (-(acc i + 1)) = -(acc i + 1) := w16_id (by omega) (by omega)
  have e8 : w16 (-(acc i - 1)) = -(acc i - 1) := w16_id (by omega) (by omega)
  by_cases c1 : m i < s i
  · have c2 : s i ≠ m i := by omega
    by_cases c3 : acc i = 10
    · simp [vFrugal, cmpgt, cmpeq, blendv, vand, vor, add16, adds16, sign16, set1, hm, c1, c2, e1, e7, e3,
        c3, w16]
    · have c4 : ¬ (10 : Int) < acc i + 1 := by omega
      have c5 : ¬ (10 : Int) < -(acc i + 1) := by omega
      simp [vFrugal, cmpgt, cmpeq, blendv, vand, vor, add16, adds16, sign16, set1, hm, c1, c2, e1, e7, e5,
        c3, c4]
      rw [if_pos (by omega)]; simp [e5]; omega
  · by_cases c2 : s i < m i
    · have c2' : s i ≠ m i := by omega
      by_cases c3 : acc i = -10
      · simp [vFrugal, cmpgt, cmpeq, blendv, vand, vor, add16, adds16, sign16, set1, hm, c1, c2, c2',
          c3, w16]
        simp [sat16]; omega
      · have c4 : ¬ (10 : Int) < acc i - 1 := by omega
        have c5 : ¬ (10 : Int) < -(acc i - 1) := by omega
        simp [vFrugal, cmpgt, cmpeq, blendv, vand, vor, add16, adds16, sign16, set1, hm, c1, c2, c2',
          e2, e8, c3, c4]
        rw [if_pos (by omega)]; simp [e5]; omega
    · have c3 : s i = m i := by omega
      have c4 : ¬ (10 : Int) < acc i := by omega
      have c5 : ¬ (10 : Int) < -(acc i) := by omega
      simp [vFrugal, cmpgt, cmpeq, blendv, vand, vor, add16, adds16, sign16, set1, hm, c3, e0, e6, c4, c5, e5]

theorem vFrugal_off {m s acc mask : Reg} {i : Nat} (hm : mask i = 0) (h1 : -100 ≤ m i)
    (h2 : m i ≤ 5000) (h3 : -10 ≤ acc i) (h4 : acc i ≤ 10) :
    ((vFrugal m s acc 10 mask).1 i, (vFrugal m s acc 10 mask).2 i) = (m i, acc i) := by
  have e0 : w16 (acc i) = acc i := w16_id (by omega) (by omega)
  have e5 : sat16 (m i) = m i := sat16_id (by omega) (by omega)
  simp [vFrugal, blendv, vand, add16, adds16, hm, e0, e5]

theorem pair_fst {a b : Int} {x : Int × Int} (h : (a, b) = x) : a = x.1 := by rw [← h]
theorem pair_snd {a b : Int} {x : Int × Int} (h : (a, b) = x) : b = x.2 := by rw [← h]

theorem naiveFilter_eq (taps : Nat → Int) (prev : List Int) (abs : Nat) :
    naiveFilter taps prev abs
      = w16 (taps 0 * prev.getD ((0 + abs) % 8) 0 + taps 1 * prev.getD ((1 + abs) % 8) 0
          + taps 2 * prev.getD ((2 + abs) % 8) 0 + taps 3 * prev.getD ((3 + abs) % 8) 0
          + taps 4 * prev.getD ((4 + abs) % 8) 0 + taps 5 * prev.getD ((5 + abs) % 8) 0
          + taps 6 * prev.getD ((6 + abs) % 8) 0 + taps 7 * prev.getD ((7 + abs) % 8) 0) := by
  unfold naiveFilter
  simp only [show List.range 8 = [0, 1, 2, 3, 4, 5, 6, 7] from rfl, List.foldl_cons, List.foldl_nil]
  simp only [w16_add_left, Int.zero_add]

theorem getD_lane (l : List Reg) (k i : Nat) :
    (l.getD k (set1 0)) i = (l.map (fun r => r i)).getD k 0 := by
  simp only [List.getD_eq_getElem?_getD, List.getElem?_map]
  cases l[k]? <;> simp [set1]

theorem vFilter_eq (a0 a1 a2 a3 a4 a5 a6 : Int) :
    w16 (w16 (w16 (w16 (0 + w16 a0) + w16 a4) + w16 (w16 (0 + w16 a1) + w16 a5))
        + w16 (w16 (w16 (0 + w16 a2) + w16 a6) + w16 (0 + w16 a3)))
      = w16 (a0 + a1 + a2 + a3 + a4 + a5 + a6 + 0) := by
  unfold w16; omega

/-- Tracking and filtering of a register acts on each lane as the scalar code does, apart from the
clamp of `sigma`. -/
theorem vPed_lane {taps : Nat → Int} {abs : Nat} {p : VPed} {s : Reg} {i : Nat}
    (h7 : taps 7 = 0) (hab : abs < 8) (h : Good (p.lane i)) (h0 : 0 ≤ s i) (h1 : s i ≤ 4095) :
    (vPed taps abs p s).1.lane i = (naivePed taps abs (p.lane i) (s i)).1
      ∧ (vPed taps abs p s).2.1 i = (naivePed taps abs (p.lane i) (s i)).2.1
      ∧ (vPed taps abs p s).2.2 i = min (naivePed taps abs (p.lane i) (s i)).2.2 102 := by
  have ha := h.med; have hb := h.q25; have hc := h.q75
  have hd := h.acc; have he := h.acc25; have hf := h.acc75
  simp only [VPed.lane] at ha hb hc hd he hf
  have hs : w16 (s i) = s i := w16_id (by omega) (by omega)
  have hm := @vFrugal_on p.med s p.acc (set1 (-1)) i rfl (by omega) (by omega) hd.1 hd.2
  have hlt : ((vFrugal p.q25 s p.acc25 10 (vnot (vor (cmpgt s p.med) (cmpeq s p.med)))).1 i,
      (vFrugal p.q25 s p.acc25 10 (vnot (vor (cmpgt s p.med) (cmpeq s p.med)))).2 i)
      = if s i < p.med i then frugal (p.q25 i) (s i) (p.acc25 i) 10 else (p.q25 i, p.acc25 i) := by
    by_cases c : s i < p.med i
    · rw [if_pos c]
      refine vFrugal_on ?_ (by omega) (by omega) he.1 he.2
      simp only [vnot, vor, cmpgt, cmpeq]
      have c1 : ¬ p.med i < s i := by omega
      have c2 : ¬ s i = p.med i := by omega
      simp [c1, c2]
    · rw [if_neg c]
      refine vFrugal_off ?_ (by omega) (by omega) he.1 he.2
      simp only [vnot, vor, cmpgt, cmpeq]
      by_cases c2 : p.med i < s i
      · simp [c2]
      · have : s i = p.med i := by omega
        simp [this]
  have hgt : ((vFrugal p.q75 s p.acc75 10 (cmpgt s p.med)).1 i,
      (vFrugal p.q75 s p.acc75 10 (cmpgt s p.med)).2 i)
      = if p.med i < s i then frugal (p.q75 i) (s i) (p.acc75 i) 10 else (p.q75 i, p.acc75 i) := by
    by_cases c : p.med i < s i
    · rw [if_pos c]
      refine vFrugal_on ?_ (by omega) (by omega) hf.1 hf.2
      simp only [cmpgt]; rw [if_pos c]
    · rw [if_neg c]
      refine vFrugal_off ?_ (by omega) (by omega) hf.1 hf.2
      simp only [cmpgt]; rw [if_neg c]
  have m1 := pair_fst hm; have m2 := pair_snd hm
  have l1 := pair_fst hlt; have l2 := pair_snd hlt
  have g1 := pair_fst hgt; have g2 := pair_snd hgt
  refine ⟨?_, ?_, ?_⟩
  · unfold vPed naivePed naiveTrack
    simp only [VPed.lane, accLimit, hs, m1, m2, l1, l2, g1, g2, List.map_set, min16, sub16, set1,
      Nat.mod_eq_of_lt hab]
  · unfold vPed naivePed
    dsimp only
    rw [naiveFilter_eq, h7, Int.zero_mul]
    simp only [add16, mullo, getD_lane, VPed.lane, vFilter_eq, set1]
  · unfold vPed naivePed naiveTrack
    simp only [VPed.lane, accLimit, hs, l1, g1, min16, sub16, set1, sigmaMax]

theorem u16_nat {x : Int} (h0 : 0 ≤ x) (h1 : x < 65536) : u16 x = x.toNat := by
  unfold u16; rw [Int.emod_eq_of_lt h0 h1]

theorem quad_lt (r : Reg) (q : Nat) (k : Nat) (hk : 0 < k) (hb : ∀ j, j < 4 → 0 ≤ r (4 * q + j))
    (hk' : ∀ j, j < 4 → r (4 * q + j) * k < 32768) (j : Nat) (hj : j < 4) :
    mulQuad r k (4 * q + j) = r (4 * q + j) * k := by
  have a0 := hb 0 (by omega); have a1 := hb 1 (by omega); have a2 := hb 2 (by omega)
  have a3 := hb 3 (by omega)
  have b0 := hk' 0 (by omega); have b1 := hk' 1 (by omega); have b2 := hk' 2 (by omega)
  have b3 := hk' 3 (by omega)
  rw [Nat.add_zero] at a0 b0
  generalize h0 : r (4 * q) = x0 at *
  generalize h1 : r (4 * q + 1) = x1 at *
  generalize h2 : r (4 * q + 2) = x2 at *
  generalize h3 : r (4 * q + 3) = x3 at *
  obtain ⟨n0, rfl⟩ := Int.eq_ofNat_of_zero_le a0
  obtain ⟨n1, rfl⟩ := Int.eq_ofNat_of_zero_le a1
  obtain ⟨n2, rfl⟩ := Int.eq_ofNat_of_zero_le a2
  obtain ⟨n3, rfl⟩ := Int.eq_ofNat_of_zero_le a3
  have cast : ∀ n : Nat, (n : Int) * k < 32768 → n * k < 32768 := by
    intro n hn
    have h : ((n * k : Nat) : Int) < 32768 := by rw [Int.natCast_mul]; exact hn
    omega
  have c0 : n0 * k < 32768 := cast n0 b0
  have c1 : n1 * k < 32768 := cast n1 b1
  have c2 : n2 * k < 32768 := cast n2 b2
  have c3 : n3 * k < 32768 := cast n3 b3
  have d : ∀ n : Nat, n * k < 32768 → n < 65536 := by
    intro n hn
    have : n * 1 ≤ n * k := Nat.mul_le_mul_left _ hk
    omega
  have hq : quad r q * k = n0 * k + 65536 * (n1 * k) + 4294967296 * (n2 * k)
      + 281474976710656 * (n3 * k) := by
    unfold quad
    rw [h0, h1, h2, h3, u16_nat (by omega) (by have := d _ c0; omega),
      u16_nat (by omega) (by have := d _ c1; omega), u16_nat (by omega) (by have := d _ c2; omega),
      u16_nat (by omega) (by have := d _ c3; omega)]
    simp only [Int.toNat_natCast]
    simp only [Nat.add_mul, Nat.mul_assoc]
  have e1 : (4 * q + j) / 4 = q := by omega
  have e2 : (4 * q + j) % 4 = j := by omega
  unfold mulQuad
  rw [e1, e2, hq]
  have key : ∀ y0 y1 y2 y3 : Nat, y0 < 32768 → y1 < 32768 → y2 < 32768 → y3 < 32768 →
      (y0 + 65536 * y1 + 4294967296 * y2 + 281474976710656 * y3) % 18446744073709551616
        / 65536 ^ 0 % 65536 = y0
      ∧ (y0 + 65536 * y1 + 4294967296 * y2 + 281474976710656 * y3) % 18446744073709551616
        / 65536 ^ 1 % 65536 = y1
      ∧ (y0 + 65536 * y1 + 4294967296 * y2 + 281474976710656 * y3) % 18446744073709551616
        / 65536 ^ 2 % 65536 = y2
      ∧ (y0 + 65536 * y1 + 4294967296 * y2 + 281474976710656 * y3) % 18446744073709551616
        / 65536 ^ 3 % 65536 = y3 := by
    intro y0 y1 y2 y3 z0 z1 z2 z3
    have hm : (y0 + 65536 * y1 + 4294967296 * y2 + 281474976710656 * y3) % 18446744073709551616
        = y0 + 65536 * y1 + 4294967296 * y2 + 281474976710656 * y3 := Nat.mod_eq_of_lt (by omega)
    rw [hm]
    simp only [Nat.reducePow]
    clear hm
    refine ⟨?_, ?_, ?_, ?_⟩ <;> omega
  obtain ⟨k0, k1, k2, k3⟩ := key _ _ _ _ c0 c1 c2 c3
  have fin : ∀ n : Nat, n * k < 32768 → w16 ((n * k : Nat) : Int) = (n : Int) * k := by
    intro n hn
    rw [w16_id (by omega) (by omega), Int.natCast_mul]
  match j, hj with
  | 0, _ => rw [k0, fin _ c0, Nat.add_zero, h0]
  | 1, _ => rw [k1, fin _ c1, h1]
  | 2, _ => rw [k2, fin _ c2, h2]
  | 3, _ => rw [k3, fin _ c3, h3]

/-- Hit finding in one lane. -/
def laneHit (t : Nat) (h : HitSt) (filt sig : Int) : HitSt × List Hit :=
  let isOver := decide (320 * sig < filt)
  let c := sat16 (h.charge + (if isOver then filt else 0) / 64)
  let d := sat16 (h.tover + if isOver then 1 else 0)
  if h.over && !isOver then (⟨false, 0, 0⟩, [⟨t % 65536, u16 c, u16 d⟩]) else (⟨isOver, c, d⟩, [])

/-- The hits of one lane in the stored groups that the reader sees. -/
def laneGroups (i : Nat) (gs : List Group) : List Hit :=
  gs.filterMap fun g =>
    if u16 (g.charge i) ≠ 0 then some ⟨g.time % 65536, u16 (g.charge i), u16 (g.tover i)⟩ else none

/-- The hits with a charge different from zero. -/
def charged (hs : List Hit) : List Hit := hs.filter (fun h => h.charge != 0)

theorem mul_lane {sigma : Reg} (hs : ∀ j, j < 16 → 0 ≤ sigma j ∧ sigma j ≤ 102) {i : Nat} (hi : i < 16) :
    mulQuad (mulQuad sigma 64) 5 i = 320 * sigma i := by
  have e : i = 4 * (i / 4) + i % 4 := by omega
  have first : ∀ j, j < 4 → mulQuad sigma 64 (4 * (i / 4) + j) = sigma (4 * (i / 4) + j) * 64 := by
    intro j hj
    exact quad_lt sigma (i / 4) 64 (by omega) (fun j hj => (hs _ (by omega)).1)
      (fun j hj => by have := hs (4 * (i / 4) + j) (by omega); omega) j hj
  have second := quad_lt (mulQuad sigma 64) (i / 4) 5 (by omega)
    (fun j hj => by rw [first j hj]; have := hs (4 * (i / 4) + j) (by omega); omega)
    (fun j hj => by rw [first j hj]; have := hs (4 * (i / 4) + j) (by omega); omega) (i % 4) (by omega)
  rw [first _ (by omega)] at second
  rw [← e] at second
  rw [second]; omega

theorem vHit_lane {t : Nat} {h : VHit} {filt sigma : Reg} {i : Nat} (hi : i < 16)
    (hs : ∀ j, j < 16 → 0 ≤ sigma j ∧ sigma j ≤ 102) :
    (vHit t h filt sigma).1.lane i = (laneHit t (h.lane i) (filt i) (sigma i)).1
      ∧ laneGroups i (vHit t h filt sigma).2 = charged (laneHit t (h.lane i) (filt i) (sigma i)).2 := by
  have hm := mul_lane hs hi
  unfold vHit laneHit
  dsimp only
  by_cases z : testZero (andnot (cmpgt filt (mulQuad (mulQuad sigma 64) 5)) h.over)
  · have zi : (andnot (cmpgt filt (mulQuad (mulQuad sigma 64) 5)) h.over) i = 0 := by
      unfold testZero at z
      have := List.all_eq_true.mp z i (by simp; exact hi)
      simpa using this
    rw [if_pos z]
    simp only [andnot, cmpgt, hm] at zi
    by_cases o : 320 * sigma i < filt i
    · simp [VHit.lane, cmpgt, adds16, srai6, blendv, set1, hm, o, laneGroups, charged]
    · have : h.over i = 0 := by simpa [o] using zi
      simp [VHit.lane, cmpgt, adds16, srai6, blendv, set1, hm, o, laneGroups, charged, this]
  · rw [if_neg z]
    by_cases o : 320 * sigma i < filt i
    · simp [VHit.lane, cmpgt, adds16, srai6, blendv, set1, hm, o, laneGroups, charged, andnot, u16]
    · by_cases p : h.over i = 0
      · simp [VHit.lane, cmpgt, adds16, srai6, blendv, set1, hm, o, laneGroups, charged, andnot, u16, p]
      · by_cases q : u16 (sat16 (h.charge i)) = 0 <;>
          simp [VHit.lane, cmpgt, adds16, srai6, blendv, set1, hm, o, laneGroups, charged, andnot, p, q]

/-- One channel of the vectorised hit finder as a scalar machine. -/
def laneRun (taps : Nat → Int) : Nat → Nat → Ped → HitSt → List Int → (Ped × HitSt) × List Hit
  | _, _, p, h, [] => ((p, h), [])
  | abs, t, p, h, x :: xs =>
    let r := naivePed taps abs p x
    let k := laneHit t h r.2.1 (min r.2.2 102)
    let z := laneRun taps ((abs + 1) % 8) (t + 1) r.1 k.1 xs
    (z.1, k.2 ++ z.2)

theorem laneGroups_append (i : Nat) (a b : List Group) :
    laneGroups i (a ++ b) = laneGroups i a ++ laneGroups i b := by
  simp [laneGroups]

theorem charged_append (a b : List Hit) : charged (a ++ b) = charged a ++ charged b := by
  simp [charged]

/-- The vectorised hit finder is sixteen independent scalar machines. -/
theorem vRun_lane {taps : Nat → Int} (h7 : taps 7 = 0) :
    ∀ (xs : List Reg) (abs t : Nat) (p : VPed) (h : VHit), abs < 8 →
      (∀ j, j < 16 → Good (p.lane j)) → (∀ x ∈ xs, ∀ j, j < 16 → 0 ≤ x j ∧ x j ≤ 4095) →
      ∀ i, i < 16 →
      (vRun taps abs t p h xs).1.1.lane i
          = (laneRun taps abs t (p.lane i) (h.lane i) (xs.map fun x => x i)).1.1
        ∧ (vRun taps abs t p h xs).1.2.lane i
          = (laneRun taps abs t (p.lane i) (h.lane i) (xs.map fun x => x i)).1.2
        ∧ laneGroups i (vRun taps abs t p h xs).2
          = charged (laneRun taps abs t (p.lane i) (h.lane i) (xs.map fun x => x i)).2
        ∧ Good ((vRun taps abs t p h xs).1.1.lane i) := by
  intro xs
  induction xs with
  | nil => intro abs t p h _ hg _ i hi; exact ⟨rfl, rfl, rfl, hg i hi⟩
  | cons x xs ih =>
    intro abs t p h hab hg hx i hi
    have hx0 := hx x (by simp)
    have step : ∀ j, j < 16 → (vPed taps abs p x).1.lane j = (naivePed taps abs (p.lane j) (x j)).1
        ∧ (vPed taps abs p x).2.1 j = (naivePed taps abs (p.lane j) (x j)).2.1
        ∧ (vPed taps abs p x).2.2 j = min (naivePed taps abs (p.lane j) (x j)).2.2 102 :=
      fun j hj => vPed_lane h7 hab (hg j hj) (hx0 j hj).1 (hx0 j hj).2
    have hs : ∀ j, j < 16 → 0 ≤ (vPed taps abs p x).2.2 j ∧ (vPed taps abs p x).2.2 j ≤ 102 := by
      intro j hj
      have := (sigma_eq (taps := taps) (abs := abs) (hg j hj) (hx0 j hj).1 (hx0 j hj).2).2
      rw [(step j hj).2.2]; omega
    have hit := vHit_lane (t := t) (h := h) (filt := (vPed taps abs p x).2.1) hi hs
    have hg' : ∀ j, j < 16 → Good ((vPed taps abs p x).1.lane j) := by
      intro j hj
      rw [(step j hj).1]; exact good_ped (hg j hj) (hx0 j hj).1 (hx0 j hj).2
    have rec' := ih ((abs + 1) % 8) (t + 1) (vPed taps abs p x).1
      (vHit t h (vPed taps abs p x).2.1 (vPed taps abs p x).2.2).1 (by omega) hg'
      (fun y hy => hx y (by simp [hy])) i hi
    rw [hit.1, (step i hi).1, (step i hi).2.1, (step i hi).2.2] at rec'
    rw [(step i hi).2.1, (step i hi).2.2] at hit
    simp only [vRun, laneRun, List.map_cons, laneGroups_append, charged_append]
    exact ⟨rec'.1, rec'.2.1, by rw [hit.2, rec'.2.2.1], rec'.2.2.2⟩

end Verif.Tpg
