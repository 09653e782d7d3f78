import Verif.TpgRuns

/-!
# Splitting a stream, and all hits of a run
-/

namespace Verif.Tpg

/-- The same hit with its time counted from `d` samples earlier (16 bits). -/
def later (d : Nat) (h : Hit) : Hit := { h with time := (h.time + d) % 65536 }

/-! ## Splitting one window -/

theorem vRun_append (taps : Nat → Int) (xs : List Reg) : ∀ (ys : List Reg) (abs t : Nat) (p : VPed) (h : VHit),
    abs < 8 →
    vRun taps abs t p h (xs ++ ys)
      = ((vRun taps ((abs + xs.length) % 8) (t + xs.length) (vRun taps abs t p h xs).1.1
            (vRun taps abs t p h xs).1.2 ys).1,
          (vRun taps abs t p h xs).2 ++ (vRun taps ((abs + xs.length) % 8) (t + xs.length)
            (vRun taps abs t p h xs).1.1 (vRun taps abs t p h xs).1.2 ys).2) := by
  induction xs with
  | nil => intro ys abs t p h ha; simp [vRun, Nat.mod_eq_of_lt ha]
  | cons x xs ih =>
    intro ys abs t p h ha
    have e1 : ((abs + 1) % 8 + xs.length) % 8 = (abs + (x :: xs).length) % 8 := by
      rw [List.length_cons]; omega
    have e2 : t + 1 + xs.length = t + (x :: xs).length := by rw [List.length_cons]; omega
    rw [List.cons_append]
    simp only [vRun]
    rw [ih ys ((abs + 1) % 8) (t + 1) _ _ (by omega), e1, e2]
    simp only [List.append_assoc]

/-- A group with its time counted from `d` samples earlier. -/
def Group.later (d : Nat) (g : Group) : Group := { g with time := g.time + d }

theorem vHit_later (t d : Nat) (h : VHit) (f s : Reg) :
    vHit (t + d) h f s = ((vHit t h f s).1, (vHit t h f s).2.map (Group.later d)) := by
  unfold vHit
  dsimp only
  split <;> simp [Group.later]

theorem vRun_later (taps : Nat → Int) (d : Nat) (xs : List Reg) : ∀ (abs t : Nat) (p : VPed) (h : VHit),
    vRun taps abs (t + d) p h xs
      = ((vRun taps abs t p h xs).1, (vRun taps abs t p h xs).2.map (Group.later d)) := by
  induction xs with
  | nil => intros; rfl
  | cons x xs ih =>
    intro abs t p h
    unfold vRun
    dsimp only
    rw [vHit_later]
    dsimp only
    rw [show t + d + 1 = t + 1 + d by omega, ih]
    simp

theorem laneGroups_later (i d : Nat) (gs : List Group) :
    laneGroups i (gs.map (Group.later d)) = (laneGroups i gs).map (later d) := by
  unfold laneGroups
  rw [List.filterMap_map, List.map_filterMap]
  apply filterMap_congr'
  intro g _
  show (if _ then _ else _) = _
  unfold Group.later
  dsimp only
  split
  · simp only [Option.map_some, later]
    congr 2
    omega
  · rfl

theorem avxSamples_split (input : Nat → Int) (r k n : Nat) :
    avxSamples input r (12 * k + n)
      = avxSamples input r (12 * k) ++ avxSamples (fun a => input (a + 1152 * k)) r n := by
  unfold avxSamples
  rw [List.range_add, List.map_append, List.map_map]
  congr 1
  apply List.map_congr_left
  intro t _
  funext i
  show input _ = input _
  congr 1
  unfold avxIndex
  have e1 : (12 * k + t) / 12 = k + t / 12 := by omega
  have e2 : (12 * k + t) % 12 = t % 12 := by omega
  rw [e1, e2]
  have e3 : (k + t / 12) * 6 * 12 = 72 * k + t / 12 * 6 * 12 := by
    rw [Nat.add_mul, Nat.add_mul]; omega
  rw [e3]; omega

theorem avxSamples_length (input : Nat → Int) (r n : Nat) : (avxSamples input r n).length = n := by
  simp [avxSamples]

theorem regRun_split (taps : Nat → Int) (v : VInfo) (ha : v.abs < 8) (input : Nat → Int) (k n r : Nat) :
    regRun taps v input (12 * k + n) r
      = ((regRun taps (avxWindow taps v input (12 * k)).1 (fun a => input (a + 1152 * k)) n r).1,
        (regRun taps v input (12 * k) r).2
          ++ (regRun taps (avxWindow taps v input (12 * k)).1 (fun a => input (a + 1152 * k)) n r).2.map
            (Group.later (12 * k))) := by
  unfold regRun
  rw [avxSamples_split, vRun_append _ _ _ _ _ _ _ ha, avxSamples_length, vRun_later]
  rfl

theorem window_split_hits (taps : Nat → Int) (v : VInfo) (ha : v.abs < 8) (input : Nat → Int) (k n c : Nat) :
    hitsOf c (windowHits taps v input (12 * k + n))
      = hitsOf c (windowHits taps v input (12 * k))
        ++ (hitsOf c (windowHits taps (avxWindow taps v input (12 * k)).1
            (fun a => input (a + 1152 * k)) n)).map (later (12 * k)) := by
  unfold windowHits
  rw [hitsOf_regs, hitsOf_regs, hitsOf_regs]
  split
  · rw [regRun_split taps v ha]
    dsimp only
    rw [laneGroups_append, laneGroups_later]
  · rfl

theorem window_split_state (taps : Nat → Int) (v : VInfo) (ha : v.abs < 8) (input : Nat → Int) (k n : Nat) :
    (avxWindow taps v input (12 * k + n)).1
      = (avxWindow taps (avxWindow taps v input (12 * k)).1 (fun a => input (a + 1152 * k)) n).1 := by
  show VInfo.mk _ _ _ = VInfo.mk _ _ _
  congr 1
  · show _ = ((v.abs + 12 * k) % 8 + n) % 8
    omega
  · funext r
    rw [regRun_split taps v ha]
  · funext r
    rw [regRun_split taps v ha]

theorem naiveRun_append (taps : Nat → Int) (xs : List Int) : ∀ (ys : List Int) (abs t : Nat) (p : Ped)
    (h : HitSt), abs < 8 →
    naiveRun taps abs t p h (xs ++ ys)
      = ((naiveRun taps ((abs + xs.length) % 8) (t + xs.length) (naiveRun taps abs t p h xs).1.1
            (naiveRun taps abs t p h xs).1.2 ys).1,
          (naiveRun taps abs t p h xs).2 ++ (naiveRun taps ((abs + xs.length) % 8) (t + xs.length)
            (naiveRun taps abs t p h xs).1.1 (naiveRun taps abs t p h xs).1.2 ys).2) := by
  induction xs with
  | nil => intro ys abs t p h ha; simp [naiveRun, Nat.mod_eq_of_lt ha]
  | cons x xs ih =>
    intro ys abs t p h ha
    have e1 : ((abs + 1) % 8 + xs.length) % 8 = (abs + (x :: xs).length) % 8 := by
      rw [List.length_cons]; omega
    have e2 : t + 1 + xs.length = t + (x :: xs).length := by rw [List.length_cons]; omega
    rw [List.cons_append]
    simp only [naiveRun]
    rw [ih ys ((abs + 1) % 8) (t + 1) _ _ (by omega), e1, e2]
    simp only [List.append_assoc]

theorem naiveHit_later (t d : Nat) (h : HitSt) (f s : Int) :
    naiveHit (t + d) h f s = ((naiveHit t h f s).1, (naiveHit t h f s).2.map (later d)) := by
  unfold naiveHit
  dsimp only
  generalize (if decide (5 * s * multiplier < f) = true then _ else h : HitSt) = h1
  split
  · simp [later]
  · rfl

theorem naiveRun_later (taps : Nat → Int) (d : Nat) (xs : List Int) : ∀ (abs t : Nat) (p : Ped) (h : HitSt),
    naiveRun taps abs (t + d) p h xs
      = ((naiveRun taps abs t p h xs).1, (naiveRun taps abs t p h xs).2.map (later d)) := by
  induction xs with
  | nil => intros; rfl
  | cons x xs ih =>
    intro abs t p h
    unfold naiveRun
    dsimp only
    rw [naiveHit_later]
    dsimp only
    rw [show t + d + 1 = t + 1 + d by omega, ih]
    simp

theorem naiveSamples_split (input : Nat → Int) (c k n : Nat) :
    naiveSamples input c (12 * k + n)
      = naiveSamples input c (12 * k) ++ naiveSamples (fun a => input (a + 1152 * k)) c n := by
  unfold naiveSamples
  rw [List.range_add, List.map_append, List.map_map]
  congr 1
  apply List.map_congr_left
  intro t _
  show input _ = input _
  congr 1
  unfold naiveIndex
  dsimp only
  have e1 : (12 * k + t) / 12 = k + t / 12 := by omega
  have e2 : (12 * k + t) % 12 = t % 12 := by omega
  rw [e1, e2]
  omega

theorem naiveSamples_length (input : Nat → Int) (c n : Nat) : (naiveSamples input c n).length = n := by
  simp [naiveSamples]

theorem naive_split (taps : Nat → Int) (v : NInfo) (ha : v.abs < 8) (input : Nat → Int) (k n : Nat) :
    (naiveWindow taps v input (12 * k + n)).1
        = (naiveWindow taps (naiveWindow taps v input (12 * k)).1 (fun a => input (a + 1152 * k)) n).1
      ∧ ∀ c, hitsOf c (naiveWindow taps v input (12 * k + n)).2
        = hitsOf c (naiveWindow taps v input (12 * k)).2
          ++ (hitsOf c (naiveWindow taps (naiveWindow taps v input (12 * k)).1
              (fun a => input (a + 1152 * k)) n).2).map (later (12 * k)) := by
  have key : ∀ c, naiveRun taps v.abs 0 (v.ped c) (v.hit c) (naiveSamples input c (12 * k + n))
      = ((naiveRun taps ((v.abs + 12 * k) % 8) 0
            (naiveRun taps v.abs 0 (v.ped c) (v.hit c) (naiveSamples input c (12 * k))).1.1
            (naiveRun taps v.abs 0 (v.ped c) (v.hit c) (naiveSamples input c (12 * k))).1.2
            (naiveSamples (fun a => input (a + 1152 * k)) c n)).1,
          (naiveRun taps v.abs 0 (v.ped c) (v.hit c) (naiveSamples input c (12 * k))).2
          ++ (naiveRun taps ((v.abs + 12 * k) % 8) 0
            (naiveRun taps v.abs 0 (v.ped c) (v.hit c) (naiveSamples input c (12 * k))).1.1
            (naiveRun taps v.abs 0 (v.ped c) (v.hit c) (naiveSamples input c (12 * k))).1.2
            (naiveSamples (fun a => input (a + 1152 * k)) c n)).2.map (later (12 * k))) := by
    intro c
    rw [naiveSamples_split, naiveRun_append _ _ _ _ _ _ _ ha, naiveSamples_length, naiveRun_later]
  refine ⟨?_, ?_⟩
  · show NInfo.mk _ _ _ = NInfo.mk _ _ _
    congr 1
    · show _ = ((v.abs + 12 * k) % 8 + n) % 8
      omega
    · funext c
      dsimp only
      rw [key c]; rfl
    · funext c
      dsimp only
      rw [key c]; rfl
  · intro c
    unfold naiveWindow
    dsimp only
    rw [hitsOf_chans, hitsOf_chans, hitsOf_chans]
    split
    · rw [key c]
    · rfl

/-! ## All hits of a channel in a run -/

/-- The hits of a channel with times counted in samples since the start of the run; the superchunks
are numbered from `k`. -/
def absHits (c : Nat) : Nat → List (List (Nat × Hit)) → List Hit
  | _, [] => []
  | k, hits :: rest =>
    (hitsOf c hits).map (fun h => { h with time := h.time + 12 * k }) ++ absHits c (k + 1) rest

theorem hitsBetween_add (taps : Nat → Int) (ped : Int) (xs : List Int) (base k m n : Nat) :
    hitsBetween taps ped xs base k (m + n)
      = hitsBetween taps ped xs base k m ++ hitsBetween taps ped xs base (k + m) n := by
  induction m generalizing k with
  | zero => simp [hitsBetween]
  | succ m ih =>
    rw [show m + 1 + n = m + n + 1 by omega, hitsBetween_succ, hitsBetween_succ, ih,
      show k + 1 + m = k + (m + 1) by omega, List.append_assoc]

theorem hitsBetween_base (taps : Nat → Int) (ped : Int) (xs : List Int) (k n : Nat) :
    (hitsBetween taps ped xs k k n).map (fun h => ({ h with time := h.time + k } : Hit))
      = hitsBetween taps ped xs 0 k n := by
  unfold hitsBetween
  rw [List.map_map]
  apply List.map_congr_left
  intro j _
  show Hit.mk _ _ _ = Hit.mk _ _ _
  congr 1
  show k + j - k + k = k + j - 0
  omega

theorem charged_map (f : Hit → Hit) (hf : ∀ h, (f h).charge = h.charge) (hs : List Hit) :
    charged (hs.map f) = (charged hs).map f := by
  unfold charged
  rw [List.filter_map]
  congr 2
  funext h
  simp [hf]

theorem absHits_runs (taps : Nat → Int) (ped : Int) (xs : List Int) (c : Nat) (f : List Hit → List Hit)
    (hf : ∀ (hs : List Hit) (d : Nat), f (hs.map fun h => { h with time := h.time + d })
      = (f hs).map fun h => { h with time := h.time + d })
    (fa : ∀ a b, f (a ++ b) = f a ++ f b) (fn : f [] = [])
    (out : List (List (Nat × Hit))) : ∀ k, (∀ (j : Nat) (hits : List (Nat × Hit)), out[j]? = some hits →
      hitsOf c hits = f (hitsBetween taps ped xs (12 * (k + j)) (12 * (k + j)) 12)) →
    absHits c k out = f (hitsBetween taps ped xs 0 (12 * k) (12 * out.length)) := by
  induction out with
  | nil => intro k _; simp [absHits, hitsBetween, fn]
  | cons hits out ih =>
    intro k h
    have h0 := h 0 hits rfl
    have r := ih (k + 1) (fun j hs hj => by
      have := h (j + 1) hs (by simpa using hj)
      rw [this, show k + (j + 1) = k + 1 + j by omega])
    unfold absHits
    rw [r, h0, Nat.add_zero, ← hf, hitsBetween_base, ← fa, List.length_cons,
      show 12 * (out.length + 1) = 12 + 12 * out.length by omega, hitsBetween_add,
      show 12 * k + 12 = 12 * (k + 1) by omega]

/-- The pedestal a channel starts from: entry `c` of the first array. -/
def startPed (ins : List (Nat → Int)) (c : Nat) : Int := (ins.headD fun _ => 0) c

/-- What a run of superchunks reports, superchunk by superchunk. -/
theorem run_hits {taps : Nat → Int} (h7 : taps 7 = 0) {old : List Nat} (ho : old.length = bufEntries)
    {ins : List (Nat → Int)} (hi : ∀ i ∈ ins, TwelveBit i) :
    ∃ out, processor taps old ins = .ok out ∧ out.length = ins.length
      ∧ ∀ c, c < 96 → ∀ (k : Nat) (hits : List (Nat × Hit)), out[k]? = some hits →
        hitsOf c hits = charged (hitsBetween taps (startPed ins c) (chanStream ins c) (12 * k) (12 * k) 12) := by
  cases ins with
  | nil => exact ⟨[], rfl, rfl, fun c _ k hits h => by simp at h⟩
  | cons i0 ins =>
    have h0 := hi i0 (by simp)
    obtain ⟨out, e, l, h⟩ := find_all h7 i0 (i0 :: ins) [] (VInfo.start i0) old (start_ok h0) rfl
      (by rw [ho]; unfold bufEntries; omega) hi
      (fun c hc => by
        rw [start_chan]
        exact inv_start taps (h0 c).1 (h0 c).2 _)
    refine ⟨out, e, l, fun c hc k hits hk => ?_⟩
    have := h c hc k hits hk
    simpa [startPed] using this

theorem run_all {taps : Nat → Int} (h7 : taps 7 = 0) {old : List Nat} (ho : old.length = bufEntries)
    {ins : List (Nat → Int)} (hi : ∀ i ∈ ins, TwelveBit i) :
    ∃ out, processor taps old ins = .ok out ∧ out.length = ins.length
      ∧ ∀ c, c < 96 → absHits c 0 out
        = charged (hitsBetween taps (startPed ins c) (chanStream ins c) 0 0 (12 * ins.length)) := by
  obtain ⟨out, e, l, h⟩ := run_hits h7 ho hi
  refine ⟨out, e, l, fun c hc => ?_⟩
  have := absHits_runs taps (startPed ins c) (chanStream ins c) c charged
    (fun hs d => charged_map (fun h => { h with time := h.time + d }) (fun _ => rfl) hs) charged_append rfl out 0
    (fun j hits hj => by simpa using h c hc j hits hj)
  rw [this, l]

/-- The runs of a stream are what the lane machine finds in one pass. -/
theorem between_lane (taps : Nat → Int) {ped : Int} (h0 : 0 ≤ ped) (h1 : ped ≤ 4095) {xs : List Int}
    (hx : ∀ y ∈ xs, 0 ≤ y ∧ y ≤ 4095) (hl : xs.length ≤ 65536) :
    (laneRun taps 0 0 (Ped.start ped) HitSt.start xs).2 = hitsBetween taps ped xs 0 0 xs.length := by
  have r := @lane_run taps ped xs [] [] (Ped.start ped) HitSt.start 0
    (inv_start taps h0 h1 _) hx (Nat.le_refl _) (by omega)
  simpa using r.2

theorem naiveRun_length (taps : Nat → Int) (xs : List Int) : ∀ abs t p h,
    ∀ x ∈ (naiveRun taps abs t p h xs).2, x.time < t + xs.length ∨ 65536 ≤ t + xs.length := by
  induction xs with
  | nil => intro abs t p h x hx; simp [naiveRun] at hx
  | cons x xs ih =>
    intro abs t p h y hy
    unfold naiveRun at hy
    dsimp only at hy
    rw [List.mem_append] at hy
    rw [List.length_cons]
    rcases hy with hy | hy
    · have : y.time = t % 65536 := by
        revert hy
        unfold naiveHit
        dsimp only
        generalize (if decide (5 * (naivePed taps abs p x).2.2 * multiplier < (naivePed taps abs p x).2.1) = true
          then _ else h : HitSt) = h1
        split
        · intro hy; simp at hy; rw [hy]
        · intro hy; simp at hy
      rw [this]
      have := Nat.mod_le t 65536
      omega
    · have := ih _ _ _ _ y hy
      omega

/-- Successive superchunks with the scalar implementation, from state `v`. -/
theorem naive_abs (taps : Nat → Int) (c : Nat) (hc : c < 96) (ins : List (Nat → Int)) :
    ∀ (k : Nat) (v : NInfo), v.abs < 8 → 12 * (k + ins.length) ≤ 65536 →
    absHits c k (naiveAll taps v ins)
      = (naiveRun taps v.abs (12 * k) (v.ped c) (v.hit c) (chanStream ins c)).2 := by
  induction ins with
  | nil => intros; rfl
  | cons input ins ih =>
    intro k v ha hl
    rw [List.length_cons] at hl
    simp only [naiveAll, absHits]
    rw [ih (k + 1) (naiveWindow taps v input 12).1 (by show (v.abs + 12) % 8 < 8; omega) (by omega)]
    have es : chanStream (input :: ins) c = chanSamples input c ++ chanStream ins c := rfl
    rw [es, naiveRun_append _ _ _ _ _ _ _ ha, chanSamples_length]
    dsimp only
    have e0 := naiveRun_later taps (12 * k) (chanSamples input c) v.abs 0 (v.ped c) (v.hit c)
    rw [Nat.zero_add] at e0
    have hw : hitsOf c (naiveWindow taps v input 12).2
        = (naiveRun taps v.abs 0 (v.ped c) (v.hit c) (chanSamples input c)).2 := by
      unfold naiveWindow
      dsimp only
      rw [hitsOf_chans, if_pos hc, chanSamples_eq]
    have hs : ((naiveWindow taps v input 12).1.ped c, (naiveWindow taps v input 12).1.hit c)
        = (naiveRun taps v.abs 0 (v.ped c) (v.hit c) (chanSamples input c)).1 := by
      rw [← chanSamples_eq]; rfl
    have hs1 := congrArg Prod.fst hs
    have hs2 := congrArg Prod.snd hs
    dsimp only at hs1 hs2
    rw [e0]
    dsimp only
    rw [hw, hs1, hs2, show 12 * (k + 1) = 12 * k + 12 by omega]
    congr 1
    apply List.map_congr_left
    intro h hh
    have := naiveRun_length taps (chanSamples input c) v.abs 0 (v.ped c) (v.hit c) h hh
    rw [chanSamples_length] at this
    unfold later
    congr 1
    rw [Nat.mod_eq_of_lt (by omega)]

end Verif.Tpg
