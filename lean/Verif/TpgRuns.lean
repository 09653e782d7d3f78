import Verif.TpgSpec
import Verif.TpgWindow

/-!
# The hit finders against the specification of runs
-/

namespace Verif.Tpg

/-- The estimates of a channel state. -/
def Ped.est (p : Ped) : Est := ⟨p.med, p.q25, p.q75, p.acc, p.acc25, p.acc75⟩

theorem frugal_exact {m s acc : Int} (h1 : -100 ≤ m) (h2 : m ≤ 5000) (h3 : -10 ≤ acc) (h4 : acc ≤ 10) :
    frugal m s acc accLimit = exactTrack m s acc := by
  rw [show accLimit = 10 from rfl, frugal_eq h1 h2 h3 h4]
  unfold exactTrack
  dsimp only
  by_cases c1 : m < s
  · simp only [if_pos c1]
    by_cases c : acc = 10
    · rw [if_pos c, if_pos (by omega)]
    · rw [if_neg c, if_neg (by omega), if_neg (by omega)]
  · simp only [if_neg c1]
    by_cases c2 : s < m
    · simp only [if_pos c2]
      by_cases c : acc = -10
      · rw [if_pos c, if_neg (by omega), if_pos (by omega)]
      · rw [if_neg c, if_neg (by omega), if_neg (by omega)]
    · simp only [if_neg c2]
      rw [if_neg (by omega), if_neg (by omega)]

theorem est_step {p : Ped} (g : Good p) (taps : Nat → Int) (abs : Nat) {x : Int} (h0 : 0 ≤ x)
    (h1 : x ≤ 4095) : (naivePed taps abs p x).1.est = p.est.next x := by
  have hx : w16 x = x := w16_id (by omega) (by omega)
  have ha := g.med; have hb := g.q25; have hc := g.q75
  have hd := g.acc; have he := g.acc25; have hf := g.acc75
  unfold naivePed naiveTrack Est.next Ped.est
  dsimp only
  rw [hx, frugal_exact (by omega) (by omega) hd.1 hd.2, frugal_exact (by omega) (by omega) he.1 he.2,
    frugal_exact (by omega) (by omega) hf.1 hf.2]

/-- What the state of a channel is after `k` samples of the stream `xs`. -/
structure Inv (taps : Nat → Int) (ped : Int) (xs : List Int) (k : Nat) (p : Ped) (h : HitSt) : Prop where
  good : Good p
  est : p.est = exactEst ped (xs.take k)
  prev : ∀ j, j < 8 → p.prev.getD ((j + k % 8) % 8) 0
      = if 8 ≤ k + j then residuals ped xs (k + j - 8) else 0
  over : h.over = (decide (0 < k) && overAt taps ped xs (k - 1))
  charge : h.charge = min 32767 (runSum (overAt taps ped xs) (chargeAt taps ped xs) k)
  tover : h.tover = min 32767 ((runLen (overAt taps ped xs) k : Nat) : Int)
  pos : 0 ≤ runSum (overAt taps ped xs) (chargeAt taps ped xs) k

theorem inv_start (taps : Nat → Int) {ped : Int} (h0 : 0 ≤ ped) (h1 : ped ≤ 4095) (xs : List Int) :
    Inv taps ped xs 0 (Ped.start ped) HitSt.start := by
  have hx : w16 ped = ped := w16_id (by omega) (by omega)
  have h3 : w16 (ped - 3) = ped - 3 := w16_id (by omega) (by omega)
  have h4 : w16 (ped + 3) = ped + 3 := w16_id (by omega) (by omega)
  refine ⟨good_start h0 h1, ?_, ?_, rfl, rfl, rfl, Int.le_refl _⟩
  · unfold Ped.est Ped.start exactEst
    rw [hx, h3, h4]; rfl
  · intro j hj
    rw [if_neg (by omega)]
    show (List.replicate 8 (0 : Int)).getD _ 0 = 0
    rw [List.getD_eq_getElem?_getD, List.getElem?_replicate]
    split <;> rfl

theorem exactEst_take {ped : Int} {xs : List Int} {k : Nat} {x : Int} (hx : xs[k]? = some x) :
    exactEst ped (xs.take (k + 1)) = (exactEst ped (xs.take k)).next x := by
  unfold exactEst
  rw [List.take_succ, hx]
  simp

theorem getD_set (l : List Int) (i j : Nat) (x : Int) (hi : i < l.length) :
    (l.set i x).getD j 0 = if j = i then x else l.getD j 0 := by
  rw [List.getD_eq_getElem?_getD, List.getD_eq_getElem?_getD, List.getElem?_set]
  by_cases c : i = j
  · subst c; simp [hi]
  · rw [if_neg c, if_neg (fun e => c e.symm)]

/-- Tracking and filtering one sample of the stream. -/
theorem ped_step {taps : Nat → Int} {ped : Int} {xs : List Int} {k : Nat} {p : Ped} {h : HitSt}
    (i : Inv taps ped xs k p h) {x : Int} (hx : xs[k]? = some x) (h0 : 0 ≤ x) (h1 : x ≤ 4095) :
    (naivePed taps (k % 8) p x).2.1 = w16 (exactFilter taps ped xs k)
      ∧ (naivePed taps (k % 8) p x).2.2 = exactSigma ped xs k
      ∧ 0 ≤ exactSigma ped xs k
      ∧ Good (naivePed taps (k % 8) p x).1
      ∧ (naivePed taps (k % 8) p x).1.est = exactEst ped (xs.take (k + 1))
      ∧ ∀ j, j < 8 → (naivePed taps (k % 8) p x).1.prev.getD ((j + (k + 1) % 8) % 8) 0
          = if 8 ≤ k + 1 + j then residuals ped xs (k + 1 + j - 8) else 0 := by
  have ge := good_ped (taps := taps) (abs := k % 8) i.good h0 h1
  have es := est_step i.good taps (k % 8) h0 h1
  rw [i.est, ← exactEst_take hx] at es
  have sg := sigma_eq (taps := taps) (abs := k % 8) i.good h0 h1
  have sx : exactSigma ped xs k
      = (naivePed taps (k % 8) p x).1.q75 - (naivePed taps (k % 8) p x).1.q25 := by
    unfold exactSigma; rw [← es]; rfl
  refine ⟨?_, ?_, ?_, ge, es, ?_⟩
  · show naiveFilter taps p.prev (k % 8) = _
    rw [naiveFilter_eq]
    unfold exactFilter
    dsimp only
    rw [i.prev 0 (by omega), i.prev 1 (by omega), i.prev 2 (by omega), i.prev 3 (by omega),
      i.prev 4 (by omega), i.prev 5 (by omega), i.prev 6 (by omega), i.prev 7 (by omega)]
  · rw [sx]; exact sg.1
  · rw [sx]; have := sg.1; have := ge.order; omega
  · intro j hj
    have hl := i.good.len
    have hw : w16 x = x := w16_id (by omega) (by omega)
    have hm : (naivePed taps (k % 8) p x).1.med = (exactEst ped (xs.take (k + 1))).med := by
      rw [← es]; rfl
    have gm := ge.med
    have hr : (naivePed taps (k % 8) p x).1.prev = p.prev.set (k % 8) (residuals ped xs k) := by
      have e1 : (naivePed taps (k % 8) p x).1.prev = p.prev.set (k % 8 % 8)
          (min (w16 (w16 x - (naivePed taps (k % 8) p x).1.med)) adcMax) := rfl
      rw [e1]
      have e2 : k % 8 % 8 = k % 8 := by omega
      rw [e2, hw, w16_id (by omega) (by omega)]
      unfold residuals
      rw [← hm, List.getD_eq_getElem?_getD, hx]
      rfl
    rw [hr, getD_set _ _ _ _ (by omega)]
    by_cases c : j = 7
    · subst c
      rw [if_pos (by omega), if_pos (by omega)]
      congr 1
    · rw [if_neg (by omega), show (j + (k + 1) % 8) % 8 = (j + 1 + k % 8) % 8 by omega,
        i.prev (j + 1) (by omega)]
      have e : k + (j + 1) = k + 1 + j := by omega
      rw [e]

theorem toNat_u16 {x : Int} (h0 : 0 ≤ x) (h1 : x ≤ 32767) : u16 x = x.toNat := u16_nat h0 (by omega)

/-- Hit finding of one sample of the stream. -/
theorem hit_step {taps : Nat → Int} {ped : Int} {xs : List Int} {k : Nat} {p : Ped} {h : HitSt}
    (i : Inv taps ped xs k p h) {x : Int} (hx : xs[k]? = some x) (h0 : 0 ≤ x) (h1 : x ≤ 4095) (t : Nat) :
    Inv taps ped xs (k + 1) (naivePed taps (k % 8) p x).1
        (laneHit t h (naivePed taps (k % 8) p x).2.1 (min (naivePed taps (k % 8) p x).2.2 102)).1
      ∧ (laneHit t h (naivePed taps (k % 8) p x).2.1 (min (naivePed taps (k % 8) p x).2.2 102)).2
        = if ends (overAt taps ped xs) k then
            [⟨t % 65536, (min 32767 (runSum (overAt taps ped xs) (chargeAt taps ped xs) k)).toNat,
              min 32767 (runLen (overAt taps ped xs) k)⟩]
          else [] := by
  obtain ⟨a, b, c, d, e, f⟩ := ped_step i hx h0 h1
  rw [a, b]
  have pos := i.pos
  have ho : decide (320 * min (exactSigma ped xs k) 102 < w16 (exactFilter taps ped xs k))
      = overAt taps ped xs k := by
    unfold overAt; congr 1; apply propext; omega
  unfold laneHit
  dsimp only
  rw [ho]
  by_cases o : overAt taps ped xs k = true
  · have nn : 0 ≤ chargeAt taps ped xs k := by
      unfold chargeAt
      have : 320 * min (exactSigma ped xs k) 102 < w16 (exactFilter taps ped xs k) := by
        simpa [o] using ho
      omega
    have en : ends (overAt taps ped xs) k = false := by simp [ends, o]
    rw [o, en]
    have ew : w16 (exactFilter taps ped xs k) / 64 = chargeAt taps ped xs k := rfl
    have rs : runSum (overAt taps ped xs) (chargeAt taps ped xs) (k + 1)
        = runSum (overAt taps ped xs) (chargeAt taps ped xs) k + chargeAt taps ped xs k := by
      simp [runSum, o]
    have rl : runLen (overAt taps ped xs) (k + 1) = runLen (overAt taps ped xs) k + 1 := by
      simp [runLen, o]
    simp only [Bool.not_true, Bool.and_false, if_true, Bool.false_eq_true, if_false, ew]
    refine ⟨⟨d, e, f, ?_, ?_, ?_, by rw [rs]; omega⟩, trivial⟩
    · simp [o]
    · show sat16 _ = _
      rw [i.charge, rs]; unfold sat16; omega
    · show sat16 _ = _
      rw [i.tover, rl]; unfold sat16; omega
  · have o : overAt taps ped xs k = false := by simpa using o
    have rs : runSum (overAt taps ped xs) (chargeAt taps ped xs) (k + 1) = 0 := by
      simp [runSum, o]
    have rl : runLen (overAt taps ped xs) (k + 1) = 0 := by simp [runLen, o]
    rw [o]
    simp only [Bool.not_false, Bool.and_true, if_false, Bool.false_eq_true]
    by_cases ov : h.over = true
    · have en : ends (overAt taps ped xs) k = true := by
        have := i.over
        rw [ov] at this
        unfold ends; rw [← this, o]; rfl
      rw [ov, en]
      simp only [if_true]
      refine ⟨⟨d, e, f, ?_, ?_, ?_, by rw [rs]; omega⟩, ?_⟩
      · simp [o]
      · show (0 : Int) = _; rw [rs]; rfl
      · show (0 : Int) = _; rw [rl]; rfl
      · rw [i.charge, i.tover]
        have s1 : sat16 (min 32767 (runSum (overAt taps ped xs) (chargeAt taps ped xs) k) + 0 / 64)
            = min 32767 (runSum (overAt taps ped xs) (chargeAt taps ped xs) k) := by
          unfold sat16; omega
        have s2 : sat16 (min 32767 ((runLen (overAt taps ped xs) k : Nat) : Int) + 0)
            = min 32767 ((runLen (overAt taps ped xs) k : Nat) : Int) := by
          unfold sat16; omega
        rw [s1, s2, toNat_u16 (by omega) (by omega), toNat_u16 (by omega) (by omega)]
        congr 2
        omega
    · have ov : h.over = false := by simpa using ov
      have prevOver : (decide (0 < k) && overAt taps ped xs (k - 1)) = false := by
        rw [← i.over]; exact ov
      have en : ends (overAt taps ped xs) k = false := by
        unfold ends; rw [prevOver]; rfl
      have z : runSum (overAt taps ped xs) (chargeAt taps ped xs) k = 0
          ∧ runLen (overAt taps ped xs) k = 0 := by
        cases k with
        | zero => exact ⟨rfl, rfl⟩
        | succ k =>
          have : overAt taps ped xs k = false := by simpa using prevOver
          simp [runSum, runLen, this]
      rw [ov, en]
      simp only [if_false, Bool.false_eq_true]
      refine ⟨⟨d, e, f, ?_, ?_, ?_, by rw [rs]; omega⟩, trivial⟩
      · simp [o]
      · show sat16 _ = _
        rw [i.charge, rs, z.1]; rfl
      · show sat16 _ = _
        rw [i.tover, rl, z.2]; rfl

/-- The hits that end in the samples `k`, …, `k + n - 1`, with times counted from `base`. -/
def hitsBetween (taps : Nat → Int) (ped : Int) (xs : List Int) (base k n : Nat) : List Hit :=
  ((List.range n).filter fun j => ends (overAt taps ped xs) (k + j)).map fun j =>
    hitAt taps ped xs base (k + j)

theorem hitsBetween_succ (taps : Nat → Int) (ped : Int) (xs : List Int) (base k n : Nat) :
    hitsBetween taps ped xs base k (n + 1)
      = (if ends (overAt taps ped xs) k then [hitAt taps ped xs base k] else [])
        ++ hitsBetween taps ped xs base (k + 1) n := by
  unfold hitsBetween
  rw [List.range_succ_eq_map, List.filter_cons, List.filter_map]
  have e : ((fun j => ends (overAt taps ped xs) (k + j)) ∘ Nat.succ)
      = fun j => ends (overAt taps ped xs) (k + 1 + j) := by
    funext j; show ends _ _ = ends _ _; congr 1; omega
  have e2 : ((fun j => hitAt taps ped xs base (k + j)) ∘ Nat.succ)
      = fun j => hitAt taps ped xs base (k + 1 + j) := by
    funext j; show hitAt _ _ _ _ _ = hitAt _ _ _ _ _; congr 1; omega
  rw [Nat.add_zero, e]
  split <;> simp [List.map_map, e2]

/-- A part of the stream. -/
theorem lane_run {taps : Nat → Int} {ped : Int} (ys : List Int) : ∀ {pre post : List Int} {p : Ped}
    {h : HitSt} {t : Nat}, Inv taps ped (pre ++ ys ++ post) pre.length p h →
    (∀ y ∈ ys, 0 ≤ y ∧ y ≤ 4095) → t ≤ pre.length → t + ys.length ≤ 65536 →
    Inv taps ped (pre ++ ys ++ post) (pre.length + ys.length)
        (laneRun taps (pre.length % 8) t p h ys).1.1 (laneRun taps (pre.length % 8) t p h ys).1.2
      ∧ (laneRun taps (pre.length % 8) t p h ys).2
        = hitsBetween taps ped (pre ++ ys ++ post) (pre.length - t) pre.length ys.length := by
  induction ys with
  | nil =>
    intro pre post p h t i _ _ _
    exact ⟨i, rfl⟩
  | cons y ys ih =>
    intro pre post p h t i hy ht h16
    have hx : (pre ++ y :: ys ++ post)[pre.length]? = some y := by simp
    obtain ⟨s1, s2⟩ := hit_step i hx (hy y (by simp)).1 (hy y (by simp)).2 t
    have el : pre ++ y :: ys ++ post = (pre ++ [y]) ++ ys ++ post := by simp
    have ll : (pre ++ [y]).length = pre.length + 1 := by simp
    rw [List.length_cons] at h16
    have r := @ih (pre ++ [y]) post (naivePed taps (pre.length % 8) p y).1
      (laneHit t h (naivePed taps (pre.length % 8) p y).2.1
        (min (naivePed taps (pre.length % 8) p y).2.2 102)).1 (t + 1)
      (by rw [← el, ll]; exact s1) (fun z hz => hy z (by simp [hz])) (by omega) (by omega)
    rw [← el, ll] at r
    have e8 : (pre.length + 1) % 8 = (pre.length % 8 + 1) % 8 := by omega
    rw [e8] at r
    unfold laneRun
    dsimp only
    refine ⟨?_, ?_⟩
    · have e : pre.length + (y :: ys).length = pre.length + 1 + ys.length := by
        rw [List.length_cons]; omega
      rw [e]; exact r.1
    · rw [r.2, s2, List.length_cons, hitsBetween_succ]
      have e : pre.length + 1 - (t + 1) = pre.length - t := by omega
      rw [e]
      congr 1
      have e2 : pre.length - (pre.length - t) = t := by omega
      have e3 : t % 65536 = t := Nat.mod_eq_of_lt (by omega)
      unfold hitAt
      rw [e2, e3]

/-! ## The scalar implementation -/

/-- Where the scalar implementation does the same as the vectorised one. -/
def SameRegion (taps : Nat → Int) (ped : Int) (xs : List Int) : Prop :=
  (∀ k, k < xs.length → exactSigma ped xs k ≤ 102 ∨ w16 (exactFilter taps ped xs k) ≤ 32640)
    ∧ ∀ k, k ≤ xs.length → runLen (overAt taps ped xs) k ≤ 32767

theorem naive_step {taps : Nat → Int} {ped : Int} {xs : List Int} {k : Nat} {p : Ped} {h : HitSt}
    (i : Inv taps ped xs k p h) {x : Int} (hx : xs[k]? = some x) (h0 : 0 ≤ x) (h1 : x ≤ 4095)
    (s : SameRegion taps ped xs) (t : Nat) :
    naiveHit t h (naivePed taps (k % 8) p x).2.1 (naivePed taps (k % 8) p x).2.2
      = laneHit t h (naivePed taps (k % 8) p x).2.1 (min (naivePed taps (k % 8) p x).2.2 102) := by
  obtain ⟨a, b, c, d, e, f⟩ := ped_step i hx h0 h1
  have hk : k < xs.length := by
    rw [List.getElem?_eq_some_iff] at hx; exact hx.1
  have s1 := s.1 k hk
  have s2 := s.2 (k + 1) hk
  have pos := i.pos
  rw [a, b]
  have w := w16_range (exactFilter taps ped xs k)
  have ho : decide (320 * min (exactSigma ped xs k) 102 < w16 (exactFilter taps ped xs k))
      = overAt taps ped xs k := by
    unfold overAt; congr 1; apply propext; omega
  have ho2 : decide (5 * exactSigma ped xs k * multiplier < w16 (exactFilter taps ped xs k))
      = overAt taps ped xs k := by
    rw [← ho]; congr 1; apply propext
    unfold multiplier
    rcases s1 with s1 | s1 <;> omega
  unfold naiveHit laneHit
  dsimp only
  rw [ho, ho2]
  have ic := i.charge
  have it := i.tover
  by_cases o : overAt taps ped xs k = true
  · have nn : 320 * min (exactSigma ped xs k) 102 < w16 (exactFilter taps ped xs k) := by
      simpa [o] using ho
    have rl : runLen (overAt taps ped xs) (k + 1) = runLen (overAt taps ped xs) k + 1 := by
      simp [runLen, o]
    rw [o]
    simp only [Bool.not_true, Bool.and_false, if_true, Bool.false_eq_true, if_false]
    rw [sat16_id (x := h.tover + 1) (by omega) (by omega), w16_id (x := h.tover + 1) (by omega) (by omega),
      w16_id (by omega) (by omega)]
    congr 2
    unfold sat16; omega
  · have o : overAt taps ped xs k = false := by simpa using o
    rw [o]
    simp only [Bool.not_false, Bool.and_true, if_false, Bool.false_eq_true]
    have c1 : sat16 (h.charge + 0 / 64) = h.charge := by unfold sat16; omega
    have c2 : sat16 (h.tover + 0) = h.tover := by unfold sat16; omega
    rw [c1, c2]
    cases hh : h.over
    · simp only [Bool.false_eq_true, if_false]
      cases h; simp_all
    · rfl

/-- On such a stream the scalar implementation is the lane machine. -/
theorem naive_run {taps : Nat → Int} {ped : Int} (ys : List Int) : ∀ {pre post : List Int} {p : Ped}
    {h : HitSt} {t : Nat}, Inv taps ped (pre ++ ys ++ post) pre.length p h →
    (∀ y ∈ ys, 0 ≤ y ∧ y ≤ 4095) → SameRegion taps ped (pre ++ ys ++ post) →
    naiveRun taps (pre.length % 8) t p h ys = laneRun taps (pre.length % 8) t p h ys := by
  induction ys with
  | nil => intros; rfl
  | cons y ys ih =>
    intro pre post p h t i hy s
    have hx : (pre ++ y :: ys ++ post)[pre.length]? = some y := by simp
    obtain ⟨s1, s2⟩ := hit_step i hx (hy y (by simp)).1 (hy y (by simp)).2 t
    have n1 := naive_step i hx (hy y (by simp)).1 (hy y (by simp)).2 s t
    have el : pre ++ y :: ys ++ post = (pre ++ [y]) ++ ys ++ post := by simp
    have ll : (pre ++ [y]).length = pre.length + 1 := by simp
    have r := @ih (pre ++ [y]) post (naivePed taps (pre.length % 8) p y).1
      (laneHit t h (naivePed taps (pre.length % 8) p y).2.1
        (min (naivePed taps (pre.length % 8) p y).2.2 102)).1 (t + 1)
      (by rw [← el, ll]; exact s1) (fun z hz => hy z (by simp [hz])) (by rw [← el]; exact s)
    rw [ll] at r
    have e8 : (pre.length + 1) % 8 = (pre.length % 8 + 1) % 8 := by omega
    rw [e8] at r
    unfold naiveRun laneRun
    dsimp only
    rw [n1, r]

/-! ## Runs of superchunks -/

/-- The samples of a channel in one superchunk: register `c / 16`, lane `c % 16`, one register
per time. -/
def chanSamples (input : Nat → Int) (c : Nat) : List Int :=
  (List.range 12).map fun t => input (192 * (c / 16) + 16 * t + c % 16)

/-- The samples of a channel in a sequence of superchunks. -/
def chanStream (ins : List (Nat → Int)) (c : Nat) : List Int := ins.flatMap fun i => chanSamples i c

theorem chanSamples_eq (input : Nat → Int) (c : Nat) : naiveSamples input c 12 = chanSamples input c := by
  unfold naiveSamples chanSamples
  apply List.map_congr_left
  intro t ht
  have ht : t < 12 := by simpa using ht
  congr 1
  unfold naiveIndex; dsimp only; omega

theorem chanSamples_length (input : Nat → Int) (c : Nat) : (chanSamples input c).length = 12 := by
  simp [chanSamples]

theorem chanStream_length (ins : List (Nat → Int)) (c : Nat) :
    (chanStream ins c).length = 12 * ins.length := by
  induction ins with
  | nil => rfl
  | cons a l ih =>
    rw [chanStream, List.flatMap_cons, List.length_append, chanSamples_length, List.length_cons]
    have := ih; unfold chanStream at this; omega

theorem chanSamples_range {input : Nat → Int} (h : TwelveBit input) (c : Nat) :
    ∀ y ∈ chanSamples input c, 0 ≤ y ∧ y ≤ 4095 := by
  intro y hy
  unfold chanSamples at hy
  rw [List.mem_map] at hy
  obtain ⟨t, _, rfl⟩ := hy
  exact h _

theorem find_all {taps : Nat → Int} (h7 : taps 7 = 0) (ped : Nat → Int) (ins : List (Nat → Int)) :
    ∀ (done : List (Nat → Int)) (v : VInfo) (old : List Nat), v.Ok → v.abs = (12 * done.length) % 8 →
      4672 ≤ old.length → (∀ i ∈ ins, TwelveBit i) →
      (∀ c, c < 96 → Inv taps (ped c) (chanStream (done ++ ins) c) (12 * done.length)
        (v.chan c).1 (v.chan c).2) →
      ∃ out, findAll taps v old ins = .ok out ∧ out.length = ins.length
        ∧ ∀ c, c < 96 → ∀ (k : Nat) (hits : List (Nat × Hit)), out[k]? = some hits →
          hitsOf c hits = charged (hitsBetween taps (ped c) (chanStream (done ++ ins) c)
            (12 * (done.length + k)) (12 * (done.length + k)) 12) := by
  induction ins with
  | nil =>
    intro done v old _ _ _ _ _
    exact ⟨[], rfl, rfl, fun c _ k hits h => by simp at h⟩
  | cons input ins ih =>
    intro done v old hv ha ho hi hinv
    obtain ⟨buf, e, hb⟩ := findHits_eq taps v input old ho
    have step : ∀ c, c < 96 →
        Inv taps (ped c) (chanStream (done ++ input :: ins) c) (12 * (done ++ [input]).length)
            ((avxWindow taps v input 12).1.chan c).1 ((avxWindow taps v input 12).1.chan c).2
          ∧ hitsOf c (windowHits taps v input 12)
            = charged (hitsBetween taps (ped c) (chanStream (done ++ input :: ins) c)
                (12 * done.length) (12 * done.length) 12) := by
      intro c hc
      obtain ⟨w1, w2, w3⟩ := window_channel h7 hv (hi input (by simp)) 12 hc
      have es : chanStream (done ++ input :: ins) c
          = chanStream done c ++ chanSamples input c ++ chanStream ins c := by
        simp [chanStream]
      have il := hinv c hc
      have hl := chanStream_length done c
      rw [es, ← hl] at il
      have r := @lane_run taps (ped c) (chanSamples input c) (chanStream done c) (chanStream ins c)
        (v.chan c).1 (v.chan c).2 0 il (chanSamples_range (hi input (by simp)) c) (Nat.zero_le _)
        (by rw [chanSamples_length]; omega)
      rw [chanSamples_length, hl, ← es, ← ha] at r
      rw [chanSamples_eq] at w1 w2
      refine ⟨?_, ?_⟩
      · rw [w2]
        have : 12 * (done ++ [input]).length = 12 * done.length + 12 := by simp; omega
        rw [this]; exact r.1
      · rw [w1, r.2, Nat.sub_zero]
    have hv' : (avxWindow taps v input 12).1.Ok := (window_channel h7 hv (hi input (by simp)) 12
      (c := 0) (by omega)).2.2
    obtain ⟨out, e2, l2, h2⟩ := ih (done ++ [input]) (avxWindow taps v input 12).1 buf hv'
      (by show (v.abs + 12) % 8 = _; rw [ha, List.length_append, List.length_singleton]; omega) (by omega)
      (fun i hi' => hi i (by simp [hi']))
      (fun c hc => by
        have := (step c hc).1
        rw [show done ++ [input] ++ ins = done ++ input :: ins by simp]
        exact this)
    refine ⟨windowHits taps v input 12 :: out, ?_, by simp [l2], ?_⟩
    · unfold findAll
      rw [e, Outcome.bind_ok]
      dsimp only
      rw [e2]; rfl
    · intro c hc k hits hk
      cases k with
      | zero =>
        rw [List.getElem?_cons_zero] at hk
        injection hk with hk
        rw [← hk, Nat.add_zero]
        exact (step c hc).2
      | succ k =>
        rw [List.getElem?_cons_succ] at hk
        have := h2 c hc k hits hk
        rw [this, show done ++ [input] ++ ins = done ++ input :: ins by simp,
          List.length_append, List.length_singleton, show done.length + 1 + k = done.length + (k + 1) by omega]

theorem hitsOf_map (c c' : Nat) (hs : List Hit) :
    hitsOf c (hs.map fun h => (c', h)) = if c' = c then hs else [] := by
  unfold hitsOf
  induction hs with
  | nil => simp
  | cons h hs ih =>
    by_cases e : c' = c
    · simp_all
    · simp [e]

theorem hitsOf_chans (c : Nat) (f : Nat → List Hit) (n : Nat) :
    hitsOf c ((List.range n).flatMap fun r => (f r).map fun h => (r, h)) = if c < n then f c else [] := by
  induction n with
  | zero => simp [hitsOf]
  | succ n ih =>
    rw [List.range_succ, List.flatMap_append, hitsOf_append, ih]
    simp only [List.flatMap_cons, List.flatMap_nil, List.append_nil, hitsOf_map]
    by_cases h : n = c
    · subst h; simp
    · by_cases h2 : c < n
      · rw [if_pos h2, if_neg h, if_pos (by omega)]; simp
      · rw [if_neg h2, if_neg h, if_neg (by omega)]; rfl

theorem naive_all {taps : Nat → Int} (ped : Nat → Int) (c : Nat) (hc : c < 96) (ins : List (Nat → Int)) :
    ∀ (done : List (Nat → Int)) (v : NInfo), v.abs = (12 * done.length) % 8 →
      (∀ i ∈ ins, TwelveBit i) →
      SameRegion taps (ped c) (chanStream (done ++ ins) c) →
      Inv taps (ped c) (chanStream (done ++ ins) c) (12 * done.length) (v.ped c) (v.hit c) →
      ∀ (k : Nat) (hits : List (Nat × Hit)), (naiveAll taps v ins)[k]? = some hits →
          hitsOf c hits = hitsBetween taps (ped c) (chanStream (done ++ ins) c)
            (12 * (done.length + k)) (12 * (done.length + k)) 12 := by
  induction ins with
  | nil => intro done v _ _ _ _ k hits h; simp [naiveAll] at h
  | cons input ins ih =>
    intro done v ha hi s il k hits hk
    have es : chanStream (done ++ input :: ins) c
        = chanStream done c ++ chanSamples input c ++ chanStream ins c := by
      simp [chanStream]
    have hl := chanStream_length done c
    have il' := il
    have s' := s
    rw [es, ← hl] at il'
    rw [es] at s'
    have n := @naive_run taps (ped c) (chanSamples input c) (chanStream done c) (chanStream ins c)
      (v.ped c) (v.hit c) 0 il' (chanSamples_range (hi input (by simp)) c) s'
    have r := @lane_run taps (ped c) (chanSamples input c) (chanStream done c) (chanStream ins c)
      (v.ped c) (v.hit c) 0 il' (chanSamples_range (hi input (by simp)) c) (Nat.zero_le _)
      (by rw [chanSamples_length]; omega)
    rw [← n, chanSamples_length, hl, ← es, ← ha] at r
    unfold naiveAll at hk
    dsimp only at hk
    cases k with
    | zero =>
      rw [List.getElem?_cons_zero] at hk
      injection hk with hk
      rw [← hk]
      unfold naiveWindow
      dsimp only
      rw [hitsOf_chans, if_pos hc, chanSamples_eq, r.2, Nat.add_zero, Nat.sub_zero]
    | succ k =>
      rw [List.getElem?_cons_succ] at hk
      have e : done ++ [input] ++ ins = done ++ input :: ins := by simp
      have := ih (done ++ [input]) (naiveWindow taps v input 12).1
        (by show (v.abs + 12) % 8 = _; rw [ha, List.length_append, List.length_singleton]; omega)
        (fun i hi' => hi i (by simp [hi'])) (by rw [e]; exact s)
        (by
          rw [e]
          have : 12 * (done ++ [input]).length = 12 * done.length + 12 := by simp; omega
          rw [this]
          have := r.1
          rw [← chanSamples_eq] at this
          exact this) k hits hk
      rw [this, e, List.length_append, List.length_singleton,
        show done.length + 1 + k = done.length + (k + 1) by omega]

end Verif.Tpg
