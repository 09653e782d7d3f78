import Verif.ValidModel
import Verif.SessionProps
import Verif.GenSetProps
/- Property C103: the fragment consumer's validation. -/
namespace Verif.Valid
open Verif.Search Verif.Session

/-! ### Specification vocabulary -/

/-- Frames at the times `ts`, 25 ticks apart, fill the window `[b, e)`. -/
def Fill (b e : Nat) (ts : List Nat) : Prop :=
  (∃ t, ts.head? = some t ∧ b ≤ t ∧ t < b + 25) ∧ (∃ t, ts.getLast? = some t ∧ t < e ∧ e ≤ t + 25) ∧
    ∀ t ∈ ts, b ≤ t ∧ t < e

/-- A fragment of WIB frames with the times `ts`. -/
structure Holds (f : Frag) (ts : List Nat) : Prop where
  type : f.type = .tpc
  size : f.size = 464 * ts.length
  times : ∀ (i t : Nat), ts[i]? = some t → f.wibTs (464 * i) = t

/-- A fragment of DAPHNE frames with the times `ts`. -/
structure HoldsPds (f : Frag) (ts : List Nat) : Prop where
  type : f.type = .pds
  size : f.size = 584 * ts.length
  times : ∀ (i t : Nat), ts[i]? = some t → f.daphneTs (584 * i) = t

/-! ### The loop -/

theorem mul_ok {i s k : Nat} (h1 : i < k) (h2 : s * (k - 1) < 2147483648) : mulI32 i s = .ok ((s * i : Nat) : Int) := by
  have : s * i ≤ s * (k - 1) := Nat.mul_le_mul_left _ (by omega)
  have e : (i : Int) * (s : Int) = ((s * i : Nat) : Int) := by push_cast; rw [Int.mul_comm]
  rw [mulI32, e, if_pos (by omega)]

theorem scan_spec {f : Frag} {g : Nat → Nat} {ts : List Nat} {s : Nat} (hs : 16 ≤ s) (hsz : f.size = s * ts.length)
    (hg : ∀ (i t : Nat), ts[i]? = some t → g (s * i) = t) (hk : s * (ts.length - 1) < 2147483648) (j m : Nat)
    (hj : j + m ≤ ts.length) :
    scan f g s (List.range' j m) =
      .ok ((((ts.drop j).take m).filter (fun t => decide (t < f.wBegin ∨ t ≥ f.wEnd))).map fun _ => Report.outside) := by
  induction m generalizing j with
  | zero => simp [scan]
  | succ m ih =>
    have hlt : j < ts.length := by omega
    rw [List.range'_succ, scan, mul_ok hlt hk, Outcome.bind_ok, at_]
    have h1 : s * j + 16 ≤ s * ts.length := by
      have : s * (j + 1) ≤ s * ts.length := Nat.mul_le_mul_left _ hlt
      rw [Nat.mul_succ] at this; omega
    rw [if_pos ⟨by omega, by rw [hsz]; exact_mod_cast h1⟩, Outcome.bind_ok, ih (j + 1) (by omega), Outcome.bind_ok]
    rw [Int.toNat_natCast, hg j ts[j] (List.getElem?_eq_getElem hlt), List.drop_eq_getElem_cons hlt, List.take_succ_cons,
      List.filter_cons]
    by_cases hc : ts[j] < f.wBegin ∨ ts[j] ≥ f.wEnd
    · rw [if_pos hc, if_pos (by simpa using hc)]; rfl
    · rw [if_neg hc, if_neg (by simpa using hc)]

theorem i32_small {k : Nat} (h : k < 2147483648) : toI32 k = k := by
  have : k % 4294967296 = k := Nat.mod_eq_of_lt (by omega)
  rw [toI32, this, if_pos h]

/-- The branch for WIB frames, on a fragment of whole frames. -/
theorem wib_spec {f : Frag} {ts : List Nat} (hsz : f.size = 464 * ts.length)
    (hg : ∀ (i t : Nat), ts[i]? = some t → f.wibTs (464 * i) = t) (h0 : ts ≠ []) (hk : ts.length ≤ 4628198) :
    wibBranch f = .ok
      ((if ¬ (ts.head h0 ≥ f.wBegin ∧ ts.head h0 < u64 (f.wBegin + 25)) then [.first] else []) ++
      (if ¬ (ts.getLast h0 < f.wEnd ∧ ts.getLast h0 ≥ u64 (f.wEnd + 18446744073709551616 - 25)) then [.last] else []) ++
      ((ts.filter (fun t => decide (t < f.wBegin ∨ t ≥ f.wEnd))).map fun _ => Report.outside)) := by
  have hpos : 0 < ts.length := List.length_pos_iff.2 h0
  have hdiv : f.size / 464 = ts.length := by rw [hsz]; exact Nat.mul_div_cancel_left _ (by decide)
  have hm : mulI32 ((ts.length : Int) - 1) 464 = .ok ((464 * (ts.length - 1) : Nat) : Int) := by
    have e : (ts.length : Int) - 1 = ((ts.length - 1 : Nat) : Int) := by omega
    rw [e]
    exact mul_ok (i := ts.length - 1) (s := 464) (k := ts.length) (by omega) (by omega)
  have hsc := scan_spec (f := f) (g := f.wibTs) (s := 464) (by decide) hsz hg (by omega) 0 ts.length (by omega)
  rw [List.drop_zero, List.take_length, ← List.range_eq_range'] at hsc
  simp only [wibBranch, hdiv, i32_small (show ts.length < 2147483648 by omega), hm, Outcome.bind_ok, Int.toNat_natCast]
  rw [show ((464 : Nat) : Int) = 464 from rfl] at hsc
  rw [at_, if_pos (by rw [hsz]; omega), Outcome.bind_ok, at_, if_pos (by rw [hsz]; omega), Outcome.bind_ok, hsc, Outcome.bind_ok]
  have e0 : f.wibTs (Int.toNat 0) = ts.head h0 := by
    have := hg 0 (ts.head h0) (by rw [← List.head?_eq_getElem?, List.head?_eq_some_head])
    simpa using this
  have e1 : f.wibTs (Int.toNat ((464 * (ts.length - 1) : Nat) : Int)) = ts.getLast h0 := by
    rw [Int.toNat_natCast]
    exact hg _ _ (by rw [← List.getLast?_eq_getElem?, List.getLast?_eq_some_getLast])
  rw [e0, e1]

/-! ### Property C103 -/

/-- **C103 is false of the code**: no fragment is ever reported, not even one with a single frame far outside its
window. -/
theorem C103_never_reports_counterexample (f : Frag) : callback f = .ok [] ∧
    ∃ f, Holds f [5000] ∧ f.wBegin = 0 ∧ f.wEnd = 100 ∧ ¬ Fill 0 100 [5000] ∧ callback f = .ok [] := by
  refine ⟨rfl, ⟨.tpc, 0, 100, 464, fun _ => 5000, 0, fun _ => 0⟩, ⟨rfl, rfl, ?_⟩, rfl, rfl, ?_, rfl⟩
  · intro i t h
    cases i with
    | zero => simp at h; exact h
    | succ i => simp at h
  · intro h
    have := h.2.2 5000 (by simp)
    omega

/-- **C103 (TPC, partial)** The written validation, on a fragment of 1 to 4628198 whole WIB frames (2.3 seconds) and a
window not at the ends of the 64-bit range: it says nothing exactly if the frames fill the window. -/
theorem C103_tpc_partial (f : Frag) (ts : List Nat) (hf : Holds f ts) (h0 : ts ≠ []) (hk : ts.length ≤ 4628198)
    (hb : f.wBegin + 25 < 18446744073709551616) (he : 25 ≤ f.wEnd) (he' : f.wEnd < 18446744073709551616) :
    body f = .ok [] ↔ Fill f.wBegin f.wEnd ts := by
  have hpos : 0 < ts.length := List.length_pos_iff.2 h0
  have hb' : u64 (f.wBegin + 25) = f.wBegin + 25 := Nat.mod_eq_of_lt hb
  have hE : u64 (f.wEnd + 18446744073709551616 - 25) = f.wEnd - 25 := by unfold u64; omega
  rw [body, if_neg (by rw [hf.size]; omega), if_pos hf.type, wib_spec hf.size hf.times h0 hk, hb', hE]
  have hh : ts.head? = some (ts.head h0) := List.head?_eq_some_head h0
  have hl : ts.getLast? = some (ts.getLast h0) := List.getLast?_eq_some_getLast h0
  simp only [Fill, hh, hl]
  constructor
  · intro h
    injection h with h
    rw [List.append_eq_nil_iff, List.append_eq_nil_iff, List.map_eq_nil_iff, List.filter_eq_nil_iff] at h
    obtain ⟨⟨h1, h2⟩, h3⟩ := h
    refine ⟨⟨_, rfl, ?_⟩, ⟨_, rfl, ?_⟩, ?_⟩
    · by_cases hc : ts.head h0 ≥ f.wBegin ∧ ts.head h0 < f.wBegin + 25
      · exact hc
      · rw [if_pos hc] at h1; cases h1
    · by_cases hc : ts.getLast h0 < f.wEnd ∧ ts.getLast h0 ≥ f.wEnd - 25
      · omega
      · rw [if_pos hc] at h2; cases h2
    · intro t ht
      have := h3 t ht
      simp at this
      exact this
  · rintro ⟨⟨t, h1, h2⟩, ⟨u, h3, h4⟩, h5⟩
    have h1 := Option.some.inj h1
    have h3 := Option.some.inj h3
    subst h1; subst h3
    rw [if_neg (by omega), if_neg (by omega)]
    refine congrArg Outcome.ok ?_
    simp only [List.nil_append, List.map_eq_nil_iff, List.filter_eq_nil_iff]
    intro t ht
    have := h5 t ht
    simp; omega

/-- Eight frames in a window of 200 ticks. -/
example : ∃ f, Holds f [650, 675, 700, 725, 750, 775, 800, 825] ∧ f.wBegin = 650 ∧ f.wEnd = 850 ∧
    body f = .ok [] := by
  refine ⟨⟨.tpc, 650, 850, 3712, fun o => 650 + 25 * (o / 464), 0, fun _ => 0⟩, ⟨rfl, rfl, ?_⟩, rfl, rfl, by decide⟩
  intro i t h
  have hi : i < 8 := (List.getElem?_eq_some_iff.1 h).1
  have : i = 0 ∨ i = 1 ∨ i = 2 ∨ i = 3 ∨ i = 4 ∨ i = 5 ∨ i = 6 ∨ i = 7 := by omega
  rcases this with rfl | rfl | rfl | rfl | rfl | rfl | rfl | rfl <;> (simp at h; subst h; rfl)

theorem scan_outside {f : Frag} {g : Nat → Nat} {st : Int} (is : List Nat) (r : List Report) (h : scan f g st is = .ok r) :
    Report.empty ∉ r := by
  induction is generalizing r with
  | nil => simp [scan] at h; subst h; simp
  | cons i is ih =>
    rw [scan] at h
    cases h1 : mulI32 i st with
    | ub u => simp [h1] at h
    | throws t => simp [h1] at h
    | ok off =>
      rw [h1, Outcome.bind_ok] at h
      cases h2 : at_ f g off with
      | ub u => simp [h2] at h
      | throws t => simp [h2] at h
      | ok t =>
        rw [h2, Outcome.bind_ok] at h
        cases h3 : scan f g st is with
        | ub u => simp [h3] at h
        | throws t => simp [h3] at h
        | ok r' =>
          rw [h3, Outcome.bind_ok] at h
          injection h with h
          subst h
          have := ih r' h3
          split <;> simp [this]

theorem wib_not_empty {f : Frag} (r : List Report) (h : wibBranch f = .ok r) : Report.empty ∉ r := by
  simp only [wibBranch] at h
  cases h1 : mulI32 (toI32 (f.size / 464) - 1) 464 with
  | ub u => simp [h1] at h
  | throws t => simp [h1] at h
  | ok off =>
    rw [h1, Outcome.bind_ok] at h
    cases h2 : at_ f f.wibTs 0 with
    | ub u => simp [h2] at h
    | throws t => simp [h2] at h
    | ok t0 =>
      rw [h2, Outcome.bind_ok] at h
      cases h3 : at_ f f.wibTs off with
      | ub u => simp [h3] at h
      | throws t => simp [h3] at h
      | ok t1 =>
        rw [h3, Outcome.bind_ok] at h
        cases h4 : scan f f.wibTs 464 (List.range (toI32 (f.size / 464)).toNat) with
        | ub u => simp [h4] at h
        | throws t => simp [h4] at h
        | ok r' =>
          rw [h4, Outcome.bind_ok] at h
          injection h with h
          subst h
          have := scan_outside _ _ h4
          rw [List.mem_append, List.mem_append]
          rintro ((hm | hm) | hm)
          · split at hm <;> simp at hm
          · split at hm <;> simp at hm
          · exact this hm

/-- **C103 (empty fragments, partial)** The written validation says "empty" of the fragments without data and of no others,
whatever their type. -/
theorem C103_empty_partial (f : Frag) : (f.size = 0 → body f = .ok [.empty]) ∧
    ∀ r, body f = .ok r → .empty ∈ r → f.size = 0 := by
  refine ⟨fun h => by rw [body, if_pos h], ?_⟩
  intro r h hm
  rw [body] at h
  split at h
  · assumption
  · exfalso
    split at h
    · exact wib_not_empty r h hm
    · split at h
      · cases h
      · split at h
        · exact wib_not_empty r h hm
        · split at h
          · exact scan_outside _ _ h hm
          · injection h with h; subst h; simp at hm

example : body ⟨.pds, 0, 10, 0, fun _ => 0, 0, fun _ => 0⟩ = .ok [.empty] := by decide

/-- **C103 (TPC reports, partial)** What the written validation says of a fragment of 1 to 4628198 whole WIB frames: whether the
first frame is the first of the window, whether the last one is its last, and one message for each frame outside. -/
theorem C103_tpc_reports_partial (f : Frag) (ts : List Nat) (hf : Holds f ts) (t0 t1 : Nat) (h0 : ts.head? = some t0)
    (h1 : ts.getLast? = some t1) (hk : ts.length ≤ 4628198) (hb : f.wBegin + 25 < 18446744073709551616) (he : 25 ≤ f.wEnd)
    (he' : f.wEnd < 18446744073709551616) : ∃ r, body f = .ok r ∧
      (.first ∈ r ↔ t0 < f.wBegin ∨ f.wBegin + 25 ≤ t0) ∧ (.last ∈ r ↔ f.wEnd ≤ t1 ∨ t1 + 25 < f.wEnd) ∧
      r.count .outside = ts.countP (fun t => decide (t < f.wBegin ∨ f.wEnd ≤ t)) := by
  have hne : ts ≠ [] := by rintro rfl; cases h0
  have hpos : 0 < ts.length := List.length_pos_iff.2 hne
  have hb' : u64 (f.wBegin + 25) = f.wBegin + 25 := Nat.mod_eq_of_lt hb
  have hE : u64 (f.wEnd + 18446744073709551616 - 25) = f.wEnd - 25 := by unfold u64; omega
  have e0 : ts.head hne = t0 := by rw [List.head?_eq_some_head hne] at h0; exact Option.some.inj h0
  have e1 : ts.getLast hne = t1 := by rw [List.getLast?_eq_some_getLast hne] at h1; exact Option.some.inj h1
  refine ⟨_, by rw [body, if_neg (by rw [hf.size]; omega), if_pos hf.type, wib_spec hf.size hf.times hne hk, hb', hE, e0, e1],
    ?_, ?_, ?_⟩
  · rw [List.mem_append, List.mem_append]
    constructor
    · rintro ((h | h) | h)
      · split at h
        · omega
        · simp at h
      · split at h <;> simp at h
      · simp at h
    · intro h
      exact .inl (.inl (by rw [if_pos (by omega)]; simp))
  · rw [List.mem_append, List.mem_append]
    constructor
    · rintro ((h | h) | h)
      · split at h <;> simp at h
      · split at h
        · omega
        · simp at h
      · simp at h
    · intro h
      exact .inl (.inr (by rw [if_pos (by omega)]; simp))
  · have hc : ∀ l : List Nat, (l.map fun _ => Report.outside).count .outside = l.length := by
      intro l; induction l with
      | nil => rfl
      | cons a l ih => rw [List.map_cons, List.count_cons_self, ih, List.length_cons]
    rw [List.count_append, List.count_append, hc, List.countP_eq_length_filter]
    have a1 : ∀ c : Prop, [Decidable c] → (if c then [Report.first] else []).count .outside = 0 := by
      intro c _; split <;> rfl
    have a2 : ∀ c : Prop, [Decidable c] → (if c then [Report.last] else []).count .outside = 0 := by
      intro c _; split <;> rfl
    rw [a1, a2, Nat.zero_add]

/-- Frames before, in and after a window of 50 ticks. -/
example : ∃ f, Holds f [75, 100, 125, 150] ∧ f.wBegin = 100 ∧ f.wEnd = 150 ∧
    body f = .ok [.first, .last, .outside, .outside] := by
  refine ⟨⟨.tpc, 100, 150, 1856, fun o => 75 + 25 * (o / 464), 0, fun _ => 0⟩, ⟨rfl, rfl, ?_⟩, rfl, rfl, by decide⟩
  intro i t h
  have hi : i < 4 := (List.getElem?_eq_some_iff.1 h).1
  have : i = 0 ∨ i = 1 ∨ i = 2 ∨ i = 3 := by omega
  rcases this with rfl | rfl | rfl | rfl <;> (simp at h; subst h; rfl)

/-- With more frames than that the offset of the last one overflows. -/
theorem C103_long_fragment_counterexample (f : Frag) (ts : List Nat) (hf : Holds f ts) (hk : 4628198 < ts.length)
    (hm : ts.length < 2147483648) : body f = .ub .overflow := by
  have hdiv : f.size / 464 = ts.length := by rw [hf.size]; exact Nat.mul_div_cancel_left _ (by decide)
  rw [body, if_neg (by rw [hf.size]; omega), if_pos hf.type]
  simp only [wibBranch, hdiv, i32_small hm]
  rw [mulI32, if_neg (by omega), Outcome.bind_ub]

example (k : Nat) : ∃ f ts, Holds f ts ∧ ts.length = k := by
  refine ⟨⟨.tpc, 0, 25, 464 * k, fun _ => 0, 0, fun _ => 0⟩, List.replicate k 0, ⟨rfl, by rw [List.length_replicate], ?_⟩,
    List.length_replicate⟩
  intro i t h
  exact (List.eq_of_mem_replicate (List.mem_of_getElem? h)).symm

/-- **C103 (PDS, partial)** On a fragment of whole DAPHNE frames whose first byte is not zero the written validation
says nothing exactly if every frame lies in the window. -/
theorem C103_pds_partial (f : Frag) (ts : List Nat) (hf : HoldsPds f ts) (h0 : ts ≠ []) (hs : f.sof ≠ 0)
    (hk : ts.length ≤ 3677199) : body f = .ok [] ↔ ∀ t ∈ ts, f.wBegin ≤ t ∧ t < f.wEnd := by
  have hpos : 0 < ts.length := List.length_pos_iff.2 h0
  have hdiv : f.size / 584 = ts.length := by rw [hf.size]; exact Nat.mul_div_cancel_left _ (by decide)
  have hsc := scan_spec (f := f) (g := f.daphneTs) (s := 584) (by decide) hf.size hf.times (by omega) 0 ts.length (by omega)
  rw [List.drop_zero, List.take_length, ← List.range_eq_range'] at hsc
  rw [body, if_neg (by rw [hf.size]; omega), if_neg (by rw [hf.type]; decide), if_neg (by rw [hf.size]; omega), if_neg hs,
    if_pos hf.type, hdiv, i32_small (by omega), Int.toNat_natCast]
  rw [show ((584 : Nat) : Int) = 584 from rfl] at hsc
  rw [hsc]
  constructor
  · intro h t ht
    injection h with h
    rw [List.map_eq_nil_iff, List.filter_eq_nil_iff] at h
    have := h t ht
    simp at this
    exact this
  · intro h
    refine congrArg Outcome.ok ?_
    simp only [List.map_eq_nil_iff, List.filter_eq_nil_iff]
    intro t ht
    have := h t ht
    simp; omega

example : ∃ f, HoldsPds f [100, 250] ∧ f.sof ≠ 0 ∧ f.wBegin = 100 ∧ f.wEnd = 200 ∧ body f = .ok [.outside] := by
  refine ⟨⟨.pds, 100, 200, 1168, fun _ => 0, 1, fun o => if o = 0 then 100 else 250⟩, ⟨rfl, rfl, ?_⟩, by decide, rfl, rfl,
    by decide⟩
  intro i t h
  have hi : i < 2 := (List.getElem?_eq_some_iff.1 h).1
  have : i = 0 ∨ i = 1 := by omega
  rcases this with rfl | rfl <;> (simp at h; subst h; rfl)

/-- **The written validation is false for photon-detector fragments whose first byte is zero**: they are taken for WIB
fragments, and two frames inside their window are reported. -/
theorem C103_pds_counterexample : ∃ f, HoldsPds f [100, 116] ∧ f.wBegin = 100 ∧ f.wEnd = 200 ∧
    body f = .ok [.first, .last, .outside, .outside] := by
  refine ⟨⟨.pds, 100, 200, 1168, fun _ => 0, 0, fun o => if o = 0 then 100 else 116⟩, ⟨rfl, rfl, ?_⟩, rfl, rfl, by decide⟩
  intro i t h
  have hi : i < 2 := (List.getElem?_eq_some_iff.1 h).1
  have : i = 0 ∨ i = 1 := by omega
  rcases this with rfl | rfl <;> (simp at h; subst h; rfl)

/-- **It is false for data with gaps**: an exact fragment (all frames received in the window) is reported if the window
begins in a gap. -/
theorem C103_gap_counterexample : ∃ f, Holds f [1000] ∧ f.wBegin = 900 ∧ f.wEnd = 1025 ∧ body f = .ok [.first] := by
  refine ⟨⟨.tpc, 900, 1025, 464, fun _ => 1000, 0, fun _ => 0⟩, ⟨rfl, rfl, ?_⟩, rfl, rfl, by decide⟩
  intro i t h
  cases i with
  | zero => simp at h; exact h
  | succ i => simp at h

/-! ### Fragments of the readout -/

/-- Payloads 300 ticks apart, from `first` on. -/
def Regular (L : List Nat) (first : Nat) : Prop := ∀ (i : Nat) (t : Nat), L[i]? = some t → t = first + 300 * i

theorem regular_steady {L : List Nat} {first : Nat} (h : Regular L first)
    (hb : first + 300 * L.length < 18446744073709551616) : Steady 300 L := by
  constructor
  · rw [List.pairwise_iff_getElem]
    intro i j hi hj hij
    rw [h i _ (List.getElem?_eq_getElem hi), h j _ (List.getElem?_eq_getElem hj)]
    omega
  · intro t ht
    obtain ⟨i, hi, rfl⟩ := List.getElem_of_mem ht
    rw [h i _ (List.getElem?_eq_getElem hi)]
    omega

/-- The times of the frames in a window. -/
theorem window_times {L : List Nat} {first : Nat} (h : Regular L first) (b e t : Nat) :
    (∃ f, InWindow 25 12 L b e f ∧ f.1 + f.2 * 25 = t) ↔ ∃ j, j < 12 * L.length ∧ t = first + 25 * j ∧ b ≤ t ∧ t < e := by
  constructor
  · rintro ⟨⟨p, k⟩, ⟨hp, hk, h1, h2⟩, rfl⟩
    obtain ⟨i, hi, hpi⟩ := List.getElem_of_mem hp
    have := h i p (by rw [List.getElem?_eq_getElem hi, hpi])
    simp only at *
    exact ⟨12 * i + k, by omega, by omega, h1, h2⟩
  · rintro ⟨j, hj, rfl, h1, h2⟩
    have hi : j / 12 < L.length := by omega
    have hv := h (j / 12) _ (List.getElem?_eq_getElem hi)
    have e : first + 300 * (j / 12) + j % 12 * 25 = first + 25 * j := by omega
    refine ⟨(first + 300 * (j / 12), j % 12), ⟨?_, Nat.mod_lt _ (by decide), ?_, ?_⟩, e⟩
    · rw [← hv]; exact List.getElem_mem hi
    · show b ≤ first + 300 * (j / 12) + j % 12 * 25
      omega
    · show first + 300 * (j / 12) + j % 12 * 25 < _
      omega

/-- Frames that fill a window of regular data. -/
theorem fill_of {first n b e : Nat} {ts : List Nat} (hm : ∀ t, t ∈ ts ↔ ∃ j, j < 12 * n ∧ t = first + 25 * j ∧ b ≤ t ∧ t < e)
    (hp : ts.Pairwise (· < ·)) (hn : 0 < n) (h1 : first ≤ b) (h2 : b + 25 ≤ e) (h3 : e ≤ first + 300 * (n - 1)) :
    Fill b e ts ∧ 25 * (ts.length - 1) < e - b ∧ ts ≠ [] := by
  have hne : ts ≠ [] := by
    intro h0
    have : first + 25 * ((b - first + 24) / 25) ∈ ts := (hm _).2 ⟨_, by omega, rfl, by omega, by omega⟩
    rw [h0] at this; cases this
  have hh : ts.head? = some (ts.head hne) := List.head?_eq_some_head hne
  have hl : ts.getLast? = some (ts.getLast hne) := List.getLast?_eq_some_getLast hne
  obtain ⟨j0, a1, a2, a3, a4⟩ := (hm _).1 (List.head_mem hne)
  obtain ⟨j1, b1, b2, b3, b4⟩ := (hm _).1 (List.getLast_mem hne)
  have least : ∀ t ∈ ts, ts.head hne ≤ t := by
    intro t ht
    cases ts with
    | nil => cases ht
    | cons x l =>
      rcases List.mem_cons.1 ht with rfl | ht
      · exact Nat.le_refl _
      · exact Nat.le_of_lt ((List.pairwise_cons.1 hp).1 t ht)
  have greatest : ∀ t ∈ ts, t ≤ ts.getLast hne := by
    intro t ht
    have e := List.dropLast_append_getLast hne
    rw [← e] at ht hp
    rcases List.mem_append.1 ht with ht | ht
    · exact Nat.le_of_lt ((List.pairwise_append.1 hp).2.2 t ht _ (by simp))
    · simp at ht; omega
  refine ⟨⟨⟨_, hh, a3, ?_⟩, ⟨_, hl, b4, ?_⟩, ?_⟩, ?_, hne⟩
  · rcases Nat.lt_or_ge (ts.head hne) (b + 25) with h | h
    · exact h
    · have := least (first + 25 * (j0 - 1)) ((hm _).2 ⟨_, by omega, rfl, by omega, by omega⟩)
      omega
  · rcases Nat.lt_or_ge (ts.getLast hne + 25) e with h | h
    · have := greatest (first + 25 * (j1 + 1)) ((hm _).2 ⟨_, by omega, rfl, by omega, by omega⟩)
      omega
    · exact h
  · intro t ht
    obtain ⟨j, -, -, c1, c2⟩ := (hm _).1 ht
    exact ⟨c1, c2⟩
  · have hstep : ts.Pairwise (fun a b => a + 25 ≤ b) := by
      refine hp.imp_of_mem ?_
      intro a c ha hc hac
      obtain ⟨j, -, e1, -⟩ := (hm _).1 ha
      obtain ⟨k, -, e2, -⟩ := (hm _).1 hc
      omega
    have := GenSet.span hstep hh hl
    omega

/-- **C103 (fragments of the readout, partial)** In a run of a WIB link whose payloads came 300 ticks apart with none
refused, every fragment sent without the error bit, for a window of 25 ticks to 2.3 seconds between the first and the
newest payload, passes the written validation. -/
theorem C103_readout_fragments_pass_partial (c : Cfg) (n : Nat) (hc : Link c n) (ht : c.tick = 25 ∧ c.nf = 12)
    (s : St) (h : Reach c n s) (e : Sent) (he : e ∈ s.sent) (hst : AllStored s.log e.run)
    (hok : e.frag.header.dataNotFound = false) (first : Nat) (hreg : Regular (runLog s.log e.run) first)
    (hbound : first + 300 * (runLog s.log e.run).length < 18446744073709551616)
    (h1 : first ≤ e.req.dr.wBegin) (h2 : e.req.dr.wBegin + 25 ≤ e.req.dr.wEnd)
    (h3 : e.req.dr.wEnd ≤ first + 300 * ((runLog s.log e.run).length - 1))
    (h4 : e.req.dr.wEnd ≤ e.req.dr.wBegin + 115704925) (f : Frag)
    (hf : Holds f (e.frag.frames.map fun x => x.1 + x.2 * 25)) (hwb : f.wBegin = e.frag.header.wBegin)
    (hwe : f.wEnd = e.frag.header.wEnd) : body f = .ok [] := by
  obtain ⟨ht1, ht2⟩ := ht
  have hsteady := regular_steady hreg hbound
  have hex := C70_fragment_exact_partial c n hc s h e he hst (by rw [ht1, ht2]; exact hsteady) hok
  rw [ht1, ht2] at hex
  obtain ⟨hm, hp⟩ := hex
  obtain ⟨hecho, -⟩ := C70_fragment_names_request c n hc s h e he
  have hpos : 0 < (runLog s.log e.run).length := by omega
  have hmem : ∀ t, t ∈ e.frag.frames.map (fun x => x.1 + x.2 * 25) ↔
      ∃ j, j < 12 * (runLog s.log e.run).length ∧ t = first + 25 * j ∧ e.req.dr.wBegin ≤ t ∧ t < e.req.dr.wEnd := by
    intro t
    rw [← window_times hreg, List.mem_map]
    constructor
    · rintro ⟨x, hx, rfl⟩; exact ⟨x, (hm x).1 hx, rfl⟩
    · rintro ⟨x, hx, rfl⟩; exact ⟨x, (hm x).2 hx, rfl⟩
  have hpw : (e.frag.frames.map fun x => x.1 + x.2 * 25).Pairwise (· < ·) := List.pairwise_map.2 hp
  obtain ⟨hfill, hlen, hne⟩ := fill_of hmem hpw hpos h1 h2 h3
  have e1 : f.wBegin = e.req.dr.wBegin := by rw [hwb]; exact hecho.2.2.1
  have e2 : f.wEnd = e.req.dr.wEnd := by rw [hwe]; exact hecho.2.2.2.1
  rw [C103_tpc_partial f _ hf hne (by omega) (by omega) (by omega) (by omega), e1, e2]
  exact hfill

example : ∃ s, Reach wib 4 s ∧ ∃ e ∈ s.sent, AllStored s.log e.run ∧ e.frag.header.dataNotFound = false ∧
    Regular (runLog s.log e.run) 300 ∧ 300 ≤ e.req.dr.wBegin ∧ e.req.dr.wBegin + 25 ≤ e.req.dr.wEnd ∧
    e.req.dr.wEnd ≤ 300 + 300 * ((runLog s.log e.run).length - 1) ∧ e.frag.frames.length = 8 := by
  obtain ⟨s, h, -, -, -, hl, ha, e, he, h1, h2, h3, h4⟩ := Session.demo_run
  refine ⟨s, h, e, he, fun a ha' _ => ha a ha', h3, ?_, by rw [h2]; decide, by rw [h2]; decide,
    by rw [h1, hl, h2]; decide, by rw [h4]; rfl⟩
  rw [h1, hl]
  intro i t hi
  have : i < 4 := (List.getElem?_eq_some_iff.1 hi).1
  have : i = 0 ∨ i = 1 ∨ i = 2 ∨ i = 3 := by omega
  rcases this with rfl | rfl | rfl | rfl <;> (simp at hi; omega)

end Verif.Valid
