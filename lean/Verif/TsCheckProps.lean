import Verif.TsCheckModel
/- Property C41: discontinuities are detected exactly. -/
namespace Verif.TsCheck
open Verif.Search Verif.Registry

theorem sub_test {p c step : Nat} (hp : p < 18446744073709551616) (hc : c < 18446744073709551616)
    (hs : step < 18446744073709551616) :
    u64 (c + 18446744073709551616 - p) = step ↔ c = (p + step) % 18446744073709551616 := by
  unfold u64; omega

/-- **C41** For every sequence of received 64-bit timestamps: the check of a payload counts an error and
registers the interval from the expected to the received timestamp iff the payload's timestamp
is not (modulo 2^64) its predecessor's plus one superchunk; otherwise it leaves the registry
alone; it always records the payload's timestamp as the processed time. -/
theorem C41_discontinuity_iff (step : Nat) (hs : step < 18446744073709551616) (p0 : Nat)
    (hp : p0 < 18446744073709551616) (r0 : Reg) (ts : List Nat) (cur : Nat)
    (ht : ∀ t ∈ ts ++ [cur], t < 18446744073709551616) :
    let before := checkAll step ⟨p0, 0, 0, r0⟩ ts
    let after := checkAll step ⟨p0, 0, 0, r0⟩ (ts ++ [cur])
    let expected := (ts.getLast?.getD p0 + step) % 18446744073709551616
    after.prev = cur ∧ after.last = cur ∧
    (cur = expected → after.errors = before.errors ∧ after.reg = before.reg) ∧
    (cur ≠ expected → after.errors = before.errors + 1 ∧
      ("MISSING_FRAMES", Interval.mk expected cur) ∈ after.reg) := by
  intro before after expected
  have hprev : before.prev = ts.getLast?.getD p0 := by
    show (checkAll step ⟨p0, 0, 0, r0⟩ ts).prev = _
    rcases List.eq_nil_or_concat ts with rfl | ⟨l, a, rfl⟩
    · rfl
    · simp only [List.concat_eq_append, checkAll, List.foldl_append, List.foldl_cons,
        List.foldl_nil, List.getLast?_append, List.getLast?_singleton, Option.some_or, Option.getD_some]
      rfl
  have hpl : before.prev < 18446744073709551616 := by
    rw [hprev]
    rcases List.eq_nil_or_concat ts with rfl | ⟨l, a, rfl⟩
    · exact hp
    · simp only [List.concat_eq_append, List.getLast?_append, List.getLast?_singleton,
        Option.some_or, Option.getD_some]
      exact ht a (by simp)
  have hafter : after = check step before cur := by
    show checkAll step _ (ts ++ [cur]) = _
    simp only [checkAll, List.foldl_append, List.foldl_cons, List.foldl_nil]; rfl
  have hcur := ht cur (by simp)
  have he : expected = (before.prev + step) % 18446744073709551616 := by rw [hprev]
  rw [hafter]
  refine ⟨rfl, rfl, ?_, ?_⟩
  · intro h
    have := (sub_test hpl hcur hs).2 (h.trans he)
    simp [check, this]
  · intro h
    have hne : u64 (cur + 18446744073709551616 - before.prev) ≠ step := fun e =>
      h (((sub_test hpl hcur hs).1 e).trans he.symm)
    simp only [check, hne, ne_eq, not_false_eq_true, if_true, true_and]
    rw [he]
    simp [addError, u64]

/-- Non-vacuity for C41: WIB step, a gap after the second payload. -/
example : (checkAll 300 ⟨700, 0, 0, []⟩ [1000, 1300]).errors = 0 ∧
    (checkAll 300 ⟨700, 0, 0, []⟩ [1000, 1300, 2200]).reg =
      [("MISSING_FRAMES", ⟨1600, 2200⟩)] := by decide

theorem u64_lt (n : Nat) : u64 n < 18446744073709551616 := Nat.mod_lt _ (by omega)

theorem emuLoop_spec (fstep n t : Nat) (ht : t < 18446744073709551616) :
    emuLoop fstep n t = (List.range n).map (fun i => (t + fstep * i) % 18446744073709551616) := by
  induction n generalizing t with
  | zero => rfl
  | succ n ih =>
    rw [emuLoop, ih _ (u64_lt _), List.range_succ_eq_map]
    simp only [List.map_cons, List.map_map, Nat.mul_zero, Nat.add_zero, Nat.mod_eq_of_lt ht]
    congr 1
    apply List.map_congr_left
    intro i _
    simp only [Function.comp, u64, Nat.succ_eq_add_one, Nat.mul_add]
    omega

/-- **C41 (emulator mode)** For every number of payloads, the frame timestamps the processor writes are
perfectly continuous over all payloads: the `n`-th frame overall carries (modulo 2^64) the initial
value plus one superchunk plus `n` frame steps; and no discontinuity is counted. -/
theorem C41_emulator_continuous (step fstep : Nat) (hst : step = 12 * fstep)
    (hs : step < 18446744073709551616) (k : Nat) (s : St) (hp : s.prev < 18446744073709551616) :
    (emuRun step fstep k s).2 =
      (List.range (12 * k)).map (fun n => (s.prev + step + fstep * n) % 18446744073709551616) ∧
    (emuRun step fstep k s).1.errors = s.errors ∧ (emuRun step fstep k s).1.reg = s.reg := by
  induction k generalizing s with
  | zero => simp [emuRun]
  | succ k ih =>
    have hfs : emuFrames step fstep s.prev =
        (List.range 12).map (fun i => (s.prev + step + fstep * i) % 18446744073709551616) := by
      rw [emuFrames, emuLoop_spec _ _ _ (u64_lt _)]
      apply List.map_congr_left
      intro i _
      simp only [u64]; omega
    have hhead : (emuFrames step fstep s.prev).headD 0 = (s.prev + step) % 18446744073709551616 := by
      rw [hfs]; rfl
    have hck : check step s ((s.prev + step) % 18446744073709551616) =
        { s with prev := (s.prev + step) % 18446744073709551616,
                 last := (s.prev + step) % 18446744073709551616 } := by
      have := (sub_test hp (Nat.mod_lt (s.prev + step) (by omega)) hs).2 rfl
      simp [check, this]
    simp only [emuRun, emuCheck, hhead, hck]
    obtain ⟨h1, h2, h3⟩ := ih ⟨(s.prev + step) % 18446744073709551616, s.errors,
      (s.prev + step) % 18446744073709551616, s.reg⟩ (Nat.mod_lt _ (by omega))
    refine ⟨?_, h2, h3⟩
    rw [h1, hfs, show 12 * (k+1) = 12 + 12 * k by omega, List.range_add, List.map_append, List.map_map]
    congr 1
    apply List.map_congr_left
    intro i _
    simp only [Function.comp, Nat.mul_add]
    have : fstep * 12 = step := by omega
    rw [this]; omega

/-- Non-vacuity: the WIB and WIB2 constants satisfy the step relation; two payloads. -/
example : (300 = 12 * 25) ∧ (384 = 12 * 32) ∧
    ((emuRun 300 25 2 ⟨0, 0, 0, []⟩).2).length = 24 ∧
    ((emuRun 300 25 2 ⟨0, 0, 0, []⟩).2)[13]? = some 625 := by decide

end Verif.TsCheck
