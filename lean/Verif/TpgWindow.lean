import Verif.TpgLemmas

/-!
# Windows of the hit finder, output buffer and splitting
-/

namespace Verif.Tpg

/-- The hits of one channel. -/
def hitsOf (c : Nat) (hits : List (Nat × Hit)) : List Hit :=
  (hits.filter fun x => x.1 == c).map Prod.snd

theorem hitsOf_append (c : Nat) (a b : List (Nat × Hit)) : hitsOf c (a ++ b) = hitsOf c a ++ hitsOf c b := by
  simp [hitsOf]

/-! ## Decoding -/

theorem filterMap_congr' {α β : Type} {f g : α → Option β} {l : List α} (h : ∀ a ∈ l, f a = g a) :
    l.filterMap f = l.filterMap g := by
  induction l with
  | nil => rfl
  | cons a l ih =>
    rw [List.filterMap_cons, List.filterMap_cons, h a (by simp), ih fun b hb => h b (by simp [hb])]

/-- The hits of one stored group. -/
def groupHits (ireg : Nat) (g : Group) : List (Nat × Hit) :=
  (List.range 16).filterMap fun i =>
    if u16 (g.charge i) ≠ 0 then
      some (ireg * 16 + i, ⟨g.time % 65536, u16 (g.charge i), u16 (g.tover i)⟩)
    else none

theorem encode_length (ireg : Nat) (g : Group) : (encodeGroup ireg g).length = 64 := by
  simp [encodeGroup]

theorem getD_map_range (f : Nat → Nat) (i : Nat) (hi : i < 16) :
    ((List.range 16).map f).getD i 0 = f i := by
  rw [List.getD_eq_getElem?_getD, List.getElem?_map, List.getElem?_range hi]; rfl

theorem decode_group {ireg : Nat} (hr : ireg < 6) (g : Group) (rest : List Nat) (hs : List (Nat × Hit))
    (h : decode rest = .ok hs) : decode (encodeGroup ireg g ++ rest) = .ok (groupHits ireg g ++ hs) := by
  have hl := encode_length ireg g
  have head : (encodeGroup ireg g ++ rest).headD 0 = ireg * 16 := by
    simp [encodeGroup, List.range_succ_eq_map]
  have t64 : (encodeGroup ireg g ++ rest).drop 64 = rest := by
    rw [← hl, List.drop_left]
  have parts : ∀ a b c d r : List Nat, a.length = 16 → b.length = 16 → c.length = 16 → d.length = 16 →
      (a ++ b ++ c ++ d ++ r).take 16 = a ∧ ((a ++ b ++ c ++ d ++ r).drop 16).take 16 = b
      ∧ ((a ++ b ++ c ++ d ++ r).drop 32).take 16 = c ∧ ((a ++ b ++ c ++ d ++ r).drop 48).take 16 = d := by
    intro a b c d r ha hb hc hd
    refine ⟨?_, ?_, ?_, ?_⟩
    · rw [List.append_assoc, List.append_assoc, List.append_assoc, List.take_left' ha]
    · rw [List.append_assoc, List.append_assoc, List.append_assoc, List.drop_left' ha, List.take_left' hb]
    · rw [List.append_assoc, List.append_assoc, List.drop_left' (by simp [ha, hb]), List.take_left' hc]
    · rw [List.append_assoc, List.drop_left' (by simp [ha, hb, hc]), List.take_left' hd]
  obtain ⟨p1, p2, p3, p4⟩ := parts _ _ _ _ rest
    (by simp : ((List.range 16).map (fun i => ireg * 16 + i)).length = 16)
    (by simp : ((List.range 16).map (fun _ => g.time % 65536)).length = 16)
    (by simp : ((List.range 16).map (fun i => u16 (g.charge i))).length = 16)
    (by simp : ((List.range 16).map (fun i => u16 (g.tover i))).length = 16)
  have q1 : (encodeGroup ireg g ++ rest).take 16 = (List.range 16).map (fun i => ireg * 16 + i) := p1
  have q2 : ((encodeGroup ireg g ++ rest).drop 16).take 16 = (List.range 16).map (fun _ => g.time % 65536) := p2
  have q3 : ((encodeGroup ireg g ++ rest).drop 32).take 16 = (List.range 16).map (fun i => u16 (g.charge i)) := p3
  have q4 : ((encodeGroup ireg g ++ rest).drop 48).take 16 = (List.range 16).map (fun i => u16 (g.tover i)) := p4
  rw [decode]
  have ne : ¬ (encodeGroup ireg g ++ rest = []) := by
    intro hh; have := congrArg List.length hh; simp [hl] at this
  rw [if_neg ne, head, if_neg (by unfold magic; omega), dif_neg (by simp [hl]), t64, h, q1, q2, q3, q4]
  simp only [Outcome.bind_ok, Outcome.pure_eq]
  congr 2
  unfold decodeLanes groupHits
  apply filterMap_congr'
  intro i hi
  have hi : i < 16 := by simpa using hi
  rw [getD_map_range _ i hi, getD_map_range _ i hi, getD_map_range _ i hi, getD_map_range _ i hi]
  have : ireg * 16 + i ≠ magic := by unfold magic; omega
  simp [this]

theorem decode_groups {ireg : Nat} (hr : ireg < 6) (gs : List Group) (rest : List Nat)
    (hs : List (Nat × Hit)) (h : decode rest = .ok hs) :
    decode (gs.flatMap (encodeGroup ireg) ++ rest) = .ok (gs.flatMap (groupHits ireg) ++ hs) := by
  induction gs with
  | nil => simpa using h
  | cons g gs ih =>
    rw [List.flatMap_cons, List.flatMap_cons, List.append_assoc, List.append_assoc]
    exact decode_group hr g _ _ ih

theorem decode_magic (rest : List Nat) : decode (List.replicate 64 magic ++ rest) = .ok [] := by
  rw [decode, List.replicate_succ, List.cons_append]
  simp

theorem decode_regs (f : Nat → List Group) (rs : List Nat) (hr : ∀ r ∈ rs, r < 6) (rest : List Nat)
    (hs : List (Nat × Hit)) (h : decode rest = .ok hs) :
    decode (rs.flatMap (fun r => (f r).flatMap (encodeGroup r)) ++ rest)
      = .ok (rs.flatMap (fun r => (f r).flatMap (groupHits r)) ++ hs) := by
  induction rs with
  | nil => simpa using h
  | cons r rs ih =>
    rw [List.flatMap_cons, List.flatMap_cons, List.append_assoc, List.append_assoc]
    exact decode_groups (hr r (by simp)) _ _ _ (ih fun r hr' => hr r (by simp [hr']))

/-- What the reader of the buffer sees after one window. -/
def windowHits (taps : Nat → Int) (v : VInfo) (input : Nat → Int) (n : Nat) : List (Nat × Hit) :=
  (List.range 6).flatMap fun r => (regRun taps v input n r).2.flatMap (groupHits r)

theorem decode_window (taps : Nat → Int) (v : VInfo) (input : Nat → Int) (n : Nat) (rest : List Nat) :
    decode ((avxWindow taps v input n).2 ++ rest) = .ok (windowHits taps v input n) := by
  unfold avxWindow windowHits
  dsimp only
  rw [List.append_assoc, decode_regs _ _ (by intro r hr; simpa using hr) _ _ (decode_magic rest)]
  simp

/-! ## Size of the output -/

theorem vHit_length (t : Nat) (h : VHit) (f s : Reg) : (vHit t h f s).2.length ≤ 1 := by
  unfold vHit; dsimp only; split <;> simp

theorem vRun_length (taps : Nat → Int) (xs : List Reg) : ∀ abs t p h,
    (vRun taps abs t p h xs).2.length ≤ xs.length := by
  induction xs with
  | nil => intro abs t p h; simp [vRun]
  | cons x xs ih =>
    intro abs t p h
    simp only [vRun, List.length_append, List.length_cons]
    have := vHit_length t h (vPed taps abs p x).2.1 (vPed taps abs p x).2.2
    have := ih ((abs + 1) % 8) (t + 1) (vPed taps abs p x).1
      (vHit t h (vPed taps abs p x).2.1 (vPed taps abs p x).2.2).1
    omega

theorem flat_length {α : Type} (f : α → List Nat) (k : Nat) (l : List α) (h : ∀ a ∈ l, (f a).length ≤ k) :
    (l.flatMap f).length ≤ k * l.length := by
  induction l with
  | nil => simp
  | cons a l ih =>
    rw [List.flatMap_cons, List.length_append, List.length_cons]
    have := h a (by simp)
    have := ih fun b hb => h b (by simp [hb])
    rw [Nat.mul_add]; omega

theorem window_length (taps : Nat → Int) (v : VInfo) (input : Nat → Int) (n : Nat) :
    (avxWindow taps v input n).2.length ≤ 384 * n + 64 := by
  unfold avxWindow
  dsimp only
  rw [List.length_append, List.length_replicate]
  have h : ∀ r ∈ List.range 6,
      ((regRun taps v input n r).2.flatMap (encodeGroup r)).length ≤ 64 * n := by
    intro r _
    have a := flat_length (encodeGroup r) 64 (regRun taps v input n r).2
      (fun g _ => Nat.le_of_eq (encode_length r g))
    have b : (regRun taps v input n r).2.length ≤ n := by
      have := vRun_length taps (avxSamples input r n) v.abs 0 (v.ped r) (v.hit r)
      simpa [regRun, avxSamples] using this
    have c : 64 * (regRun taps v input n r).2.length ≤ 64 * n := Nat.mul_le_mul_left _ b
    omega
  have := flat_length _ (64 * n) (List.range 6) h
  simp at this ⊢
  omega

/-! ## Hits of one channel -/

theorem filterMap_one {α : Type} (n k : Nat) (hk : k < n) (f : Nat → Option α) :
    (List.range n).filterMap (fun i => if i = k then f i else none) = (f k).toList := by
  induction n with
  | zero => omega
  | succ n ih =>
    rw [List.range_succ, List.filterMap_append]
    by_cases h : k = n
    · subst h
      have : (List.range k).filterMap (fun i => if i = k then f i else none) = [] := by
        rw [List.filterMap_eq_nil_iff]
        intro a ha; have : a < k := by simpa using ha
        rw [if_neg (by omega)]
      rw [this]
      cases hf : f k <;> simp [hf]
    · rw [ih (by omega)]
      have : ¬ n = k := fun e => h e.symm
      simp [this]

theorem hitsOf_group (c r : Nat) (g : Group) :
    hitsOf c (groupHits r g) = if c / 16 = r then laneGroups (c % 16) [g] else [] := by
  have e : hitsOf c (groupHits r g)
      = (List.range 16).filterMap (fun i => if r * 16 + i = c then
          (if u16 (g.charge i) ≠ 0 then
            some (⟨g.time % 65536, u16 (g.charge i), u16 (g.tover i)⟩ : Hit) else none) else none) := by
    unfold hitsOf groupHits
    generalize List.range 16 = l
    induction l with
    | nil => rfl
    | cons a l ih =>
      rw [List.filterMap_cons, List.filterMap_cons]
      by_cases h0 : u16 (g.charge a) = 0
      · simp only [h0, ne_eq, not_true_eq_false, if_false]
        rw [ih]; simp
      · simp only [h0, ne_eq, not_false_eq_true, if_true]
        by_cases hc : r * 16 + a = c
        · simp only [hc, if_true]
          rw [List.filter_cons_of_pos (by simp), List.map_cons, ih]
        · simp only [hc, if_false]
          rw [List.filter_cons_of_neg (by simp [hc]), ih]
  rw [e]
  by_cases h : c / 16 = r
  · rw [if_pos h]
    have : ∀ i, (r * 16 + i = c) = (i = c % 16) := by
      intro i; apply propext; omega
    simp only [this]
    rw [filterMap_one 16 (c % 16) (by omega) (fun i => if u16 (g.charge i) ≠ 0 then
            some (⟨g.time % 65536, u16 (g.charge i), u16 (g.tover i)⟩ : Hit) else none)]
    unfold laneGroups
    split <;> simp_all
  · rw [if_neg h, List.filterMap_eq_nil_iff]
    intro i hi
    have : i < 16 := by simpa using hi
    rw [if_neg (by omega)]

theorem hitsOf_groups (c r : Nat) (gs : List Group) :
    hitsOf c (gs.flatMap (groupHits r)) = if c / 16 = r then laneGroups (c % 16) gs else [] := by
  induction gs with
  | nil => simp [hitsOf, laneGroups]
  | cons g gs ih =>
    rw [List.flatMap_cons, hitsOf_append, ih, hitsOf_group]
    split
    · rw [← laneGroups_append]; rfl
    · rfl

theorem hitsOf_regs (c : Nat) (f : Nat → List Group) (n : Nat) :
    hitsOf c ((List.range n).flatMap fun r => (f r).flatMap (groupHits r))
      = if c / 16 < n then laneGroups (c % 16) (f (c / 16)) else [] := by
  induction n with
  | zero => simp [hitsOf]
  | succ n ih =>
    rw [List.range_succ, List.flatMap_append, hitsOf_append, ih]
    simp only [List.flatMap_cons, List.flatMap_nil, List.append_nil]
    rw [hitsOf_groups]
    by_cases h : c / 16 = n
    · rw [if_neg (by omega), if_pos h, if_pos (by omega), h]; rfl
    · rw [if_neg h]
      by_cases h2 : c / 16 < n
      · rw [if_pos h2, if_pos (by omega)]; simp
      · rw [if_neg h2, if_neg (by omega)]; rfl

/-- Samples of 12 bits in the part of the array a window of `n` frames reads. -/
def TwelveBit (input : Nat → Int) : Prop := ∀ a, 0 ≤ input a ∧ input a ≤ 4095

/-- The state of a channel. -/
def VInfo.chan (v : VInfo) (c : Nat) : Ped × HitSt :=
  ((v.ped (c / 16)).lane (c % 16), (v.hit (c / 16)).lane (c % 16))

/-- The state a run can be in. -/
def VInfo.Ok (v : VInfo) : Prop := v.abs < 8 ∧ ∀ c, c < 96 → Good (v.chan c).1

theorem lane_samples (input : Nat → Int) (c n : Nat) :
    ((avxSamples input (c / 16) n).map fun x => x (c % 16)) = naiveSamples input c n := by
  unfold avxSamples naiveSamples
  rw [List.map_map]
  apply List.map_congr_left
  intro t _
  show input _ = input _
  congr 1
  unfold avxIndex naiveIndex
  dsimp only
  have : t / 12 * 2304 / 2 = t / 12 * 1152 := by omega
  rw [this]; omega

/-- One window, one channel: the vectorised code is the scalar machine `laneRun`. -/
theorem window_channel {taps : Nat → Int} (h7 : taps 7 = 0) {v : VInfo} (hv : v.Ok) {input : Nat → Int}
    (hi : TwelveBit input) (n : Nat) {c : Nat} (hc : c < 96) :
    hitsOf c (windowHits taps v input n)
        = charged (laneRun taps v.abs 0 (v.chan c).1 (v.chan c).2 (naiveSamples input c n)).2
      ∧ (avxWindow taps v input n).1.chan c
        = (laneRun taps v.abs 0 (v.chan c).1 (v.chan c).2 (naiveSamples input c n)).1
      ∧ (avxWindow taps v input n).1.Ok := by
  have all : ∀ c, c < 96 → _ := fun c (hc : c < 96) =>
    vRun_lane h7 (avxSamples input (c / 16) n) v.abs 0 (v.ped (c / 16)) (v.hit (c / 16)) hv.1
      (fun j hj => by
        have := hv.2 (16 * (c / 16) + j) (by omega)
        unfold VInfo.chan at this
        have e1 : (16 * (c / 16) + j) / 16 = c / 16 := by omega
        have e2 : (16 * (c / 16) + j) % 16 = j := by omega
        rw [e1, e2] at this; exact this)
      (fun x hx j hj => by
        unfold avxSamples at hx
        rw [List.mem_map] at hx
        obtain ⟨t, _, rfl⟩ := hx
        exact hi _) (c % 16) (by omega)
  obtain ⟨a, b, d, _⟩ := all c hc
  rw [lane_samples] at a b d
  refine ⟨?_, Prod.ext a b, ?_, ?_⟩
  · unfold windowHits
    rw [hitsOf_regs, if_pos (by omega)]
    exact d
  · show (v.abs + n) % 8 < 8
    omega
  · intro c' hc'
    exact (all c' hc').2.2.2

theorem start_ok {input : Nat → Int} (hi : TwelveBit input) : (VInfo.start input).Ok := by
  refine ⟨(by decide : 0 < 8), fun c _ => ?_⟩
  have h := hi c
  have e : 16 * (c / 16) + c % 16 = c := by omega
  have : ((VInfo.start input).chan c).1 = Ped.start (input c) := by
    unfold VInfo.chan VInfo.start VPed.lane
    dsimp only
    rw [e]
    simp [Ped.start, set1]
  rw [this]
  exact good_start h.1 h.2

theorem start_chan (input : Nat → Int) (c : Nat) :
    (VInfo.start input).chan c = (Ped.start (input c), HitSt.start) := by
  have e : 16 * (c / 16) + c % 16 = c := by omega
  unfold VInfo.chan VInfo.start VPed.lane VHit.lane HitSt.start
  dsimp only
  rw [e]
  simp [Ped.start, set1]

/-- Hits and state of one superchunk: nothing goes wrong if the buffer has room. -/
theorem findHits_eq (taps : Nat → Int) (v : VInfo) (input : Nat → Int) (old : List Nat)
    (ho : 4672 ≤ old.length) :
    ∃ buf, findHits taps v input old
        = .ok ((avxWindow taps v input 12).1, buf, windowHits taps v input 12)
      ∧ buf.length = old.length := by
  have hl := window_length taps v input 12
  refine ⟨(avxWindow taps v input 12).2 ++ old.drop (avxWindow taps v input 12).2.length, ?_, ?_⟩
  · unfold findHits store
    dsimp only
    rw [if_pos (by omega), Outcome.bind_ok, decode_window]
    rfl
  · rw [List.length_append, List.length_drop]; omega

end Verif.Tpg
