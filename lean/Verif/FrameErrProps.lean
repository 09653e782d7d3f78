import Verif.FrameErrModel
/- Property C42: throttled forwarding of errored frames. -/
namespace Verif.FrameErr

/-- Number of frames for which bit `j` passed the throttle. -/
def passedBy (j : Nat) (os : List Out) : Nat := os.countP (fun o => decide (j ∈ o.passed))

theorem bits_spec (c : Cfg) (f : Frame) (n j0 : Nat) (ctr : Nat → Nat) (pushed : Bool) (o : Out)
    (hp : o.pushes = if pushed then 1 else 0) (hlow : ∀ k ∈ o.passed, k < j0)
    (hemp : pushed = true → o.passed ≠ []) (hthr : ∀ k, ctr k ≤ c.thr) :
    let r := bits c f n j0 ctr pushed o
    r.2.pushes ≤ 1 ∧ (r.2.pushes = 1 → r.2.passed ≠ []) ∧
    (∀ k, k < j0 → (k ∈ r.2.passed ↔ k ∈ o.passed)) ∧
    (∀ k, j0 ≤ k → (k ∈ r.2.passed ↔ k < j0 + n ∧ f.err.testBit k = true ∧ ctr k < c.thr)) ∧
    (∀ k, (k ∈ r.2.passed ∧ j0 ≤ k → r.1 k = ctr k + 1) ∧ (¬ (k ∈ r.2.passed ∧ j0 ≤ k) → r.1 k = ctr k)) ∧
    ((∀ k, f.ok k = true) → (o.passed ≠ [] → pushed = true) → r.2.passed ≠ [] → r.2.pushes = 1) := by
  induction n generalizing j0 ctr pushed o with
  | zero =>
    simp only [bits]
    refine ⟨by rw [hp]; split <;> omega, ?_, by simp, ?_, ?_, ?_⟩
    · intro h; rw [hp] at h; split at h
      · rename_i e; exact hemp e
      · omega
    · intro k hk
      constructor
      · intro h; have := hlow k h; omega
      · intro h; omega
    · intro k
      refine ⟨?_, fun _ => by first | rfl | trivial⟩
      rintro ⟨h, h'⟩; have := hlow k h; omega
    · intro _ h1 h2; rw [hp, if_pos (h1 h2)]
  | succ n ih =>
    simp only [bits]
    split
    · rename_i hcond
      have hlow' : ∀ k ∈ o.passed ++ [j0], k < j0 + 1 := by
        intro k hk
        rcases List.mem_append.1 hk with h | h
        · have := hlow k h; omega
        · simp at h; omega
      have hp' : o.pushes + (if pushed = false ∧ f.ok j0 = true then 1 else 0) =
          if (pushed || f.ok j0) = true then 1 else 0 := by
        rw [hp]; cases pushed <;> cases f.ok j0 <;> simp
      have hthr' : ∀ k, (if k = j0 then ctr j0 + 1 else ctr k) ≤ c.thr := by
        intro k; split
        · omega
        · exact hthr k
      have := ih (j0 + 1) (fun k => if k = j0 then ctr j0 + 1 else ctr k) (pushed || f.ok j0)
        ⟨o.passed ++ [j0], _⟩ hp' hlow' (by simp) hthr'
      obtain ⟨r1, r2, r3, r4, r5, r6⟩ := this
      refine ⟨r1, r2, ?_, ?_, ?_, ?_⟩
      · intro k hk
        rw [r3 k (by omega)]; simp; omega
      · intro k hk
        by_cases he : k = j0
        · subst he
          rw [r3 k (by omega)]
          simp [hcond]
        · rw [r4 k (by omega)]
          simp only [if_neg he]
          constructor
          · rintro ⟨a, b⟩; exact ⟨by omega, b⟩
          · rintro ⟨a, b⟩; exact ⟨by omega, b⟩
      · intro k
        by_cases he : k = j0
        · subst he
          have hm := (r3 k (by omega)).2 (by simp)
          have hv := (r5 k).2 (by omega)
          rw [if_pos rfl] at hv
          exact ⟨fun _ => hv, fun h => absurd ⟨hm, Nat.le_refl _⟩ h⟩
        · have hv := r5 k
          simp only [if_neg he] at hv
          exact ⟨fun h => hv.1 ⟨h.1, by omega⟩, fun h => hv.2 (fun h' => h ⟨h'.1, by omega⟩)⟩
      · intro hok _ hr
        exact r6 hok (fun _ => by simp [hok j0]) hr
    · rename_i hcond
      have hlow' : ∀ k ∈ o.passed, k < j0 + 1 := fun k hk => by have := hlow k hk; omega
      have := ih (j0 + 1) ctr pushed o hp hlow' hemp hthr
      obtain ⟨r1, r2, r3, r4, r5, r6⟩ := this
      refine ⟨r1, r2, fun k hk => r3 k (by omega), ?_, ?_, r6⟩
      · intro k hk
        by_cases he : k = j0
        · subst he
          rw [r3 k (by omega)]
          constructor
          · intro h; have := hlow k h; omega
          · rintro ⟨-, a, b⟩; exact absurd ⟨a, b⟩ hcond
        · rw [r4 k (by omega)]
          constructor
          · rintro ⟨a, b⟩; exact ⟨by omega, b⟩
          · rintro ⟨a, b⟩; exact ⟨by omega, b⟩
      · intro k
        refine ⟨fun h => ?_, fun h => (r5 k).2 (fun h' => h ⟨h'.1, by omega⟩)⟩
        apply (r5 k).1
        refine ⟨h.1, ?_⟩
        by_cases he : k = j0
        · subst he
          have := (r3 k (by omega)).1 h.1
          have := hlow k this; omega
        · omega

theorem frame_spec (c : Cfg) (s : St) (f : Frame) (hthr : ∀ k, s.ctr k ≤ c.thr) :
    let r := frame c s f
    (∀ k, r.1.ctr k ≤ c.thr) ∧ r.2.pushes ≤ 1 ∧ (r.2.pushes = 1 → r.2.passed ≠ []) ∧
    (∀ k, k ∈ r.2.passed ↔ k < 16 ∧ f.err.testBit k = true ∧ decay c s k < c.thr) ∧
    (∀ k, (k ∈ r.2.passed → r.1.ctr k = decay c s k + 1) ∧ (k ∉ r.2.passed → r.1.ctr k = decay c s k)) ∧
    ((∀ k, f.ok k = true) → r.2.passed ≠ [] → r.2.pushes = 1) := by
  have hd : ∀ k, decay c s k ≤ c.thr := by
    intro k; unfold decay; split
    · have := hthr k; show s.ctr k - 1 ≤ _; omega
    · exact hthr k
  obtain ⟨r1, r2, r3, r4, r5, r6⟩ :=
    bits_spec c f 16 0 (decay c s) false ⟨[], 0⟩ (by simp) (by simp) (by simp) hd
  have h5 : ∀ k, (k ∈ (frame c s f).2.passed → (frame c s f).1.ctr k = decay c s k + 1) ∧
      (k ∉ (frame c s f).2.passed → (frame c s f).1.ctr k = decay c s k) := by
    intro k
    exact ⟨fun h => (r5 k).1 ⟨h, Nat.zero_le _⟩, fun h => (r5 k).2 (fun h' => h h'.1)⟩
  have h4 : ∀ k, k ∈ (frame c s f).2.passed ↔ k < 16 ∧ f.err.testBit k = true ∧ decay c s k < c.thr := by
    intro k
    have := r4 k (Nat.zero_le _)
    simpa [frame] using this
  refine ⟨?_, r1, r2, h4, h5, fun hok hr => r6 hok (by simp) hr⟩
  intro k
  show (frame c s f).1.ctr k ≤ c.thr
  by_cases h : k ∈ (frame c s f).2.passed
  · rw [(h5 k).1 h]; exact ((h4 k).1 h).2.2
  · rw [(h5 k).2 h]; exact hd k

/-- Accounting of one bit over a stream: what passed is what the counter gained plus at most one per
decay. -/
theorem run_bound (c : Cfg) (fs : List Frame) (s : St) (hthr : ∀ k, s.ctr k ≤ c.thr) (j : Nat) :
    passedBy j (run c s fs).2 + s.ctr j + (s.processed + 9999) / 10000 ≤
      (run c s fs).1.ctr j + (s.processed + fs.length + 9999) / 10000 ∧
    (∀ k, (run c s fs).1.ctr k ≤ c.thr) := by
  induction fs generalizing s with
  | nil => simp [run, passedBy, hthr]
  | cons f fs ih =>
    obtain ⟨f1, -, -, -, f5, -⟩ := frame_spec c s f hthr
    obtain ⟨i1, i2⟩ := ih (frame c s f).1 f1
    refine ⟨?_, i2⟩
    have hproc : (frame c s f).1.processed = s.processed + 1 := rfl
    rw [hproc] at i1
    have hrun : run c s (f :: fs) = ((run c (frame c s f).1 fs).1, (frame c s f).2 :: (run c (frame c s f).1 fs).2) := rfl
    rw [hrun]
    simp only [passedBy, List.countP_cons, List.length_cons] at *
    have hdec : s.ctr j ≤ decay c s j + (if s.processed % 10000 = 0 then 1 else 0) := by
      unfold decay
      split
      · show s.ctr j ≤ s.ctr j - 1 + 1; omega
      · omega
    have hp := f5 j
    by_cases hm : j ∈ (frame c s f).2.passed
    · have := hp.1 hm
      simp only [hm, decide_true, if_true]
      split at hdec <;> omega
    · have := hp.2 hm
      simp only [hm, decide_false, Bool.false_eq_true, if_false]
      split at hdec <;> omega

/-- Specification of C42 for one bit: at most `thr` frames plus one per started interval of `freq`
processed frames. -/
def Throttled (thr freq n passed : Nat) : Prop := passed ≤ thr + (n + freq - 1) / freq

theorem run_len (c : Cfg) (fs : List Frame) (s : St) : (run c s fs).2.length = fs.length := by
  induction fs generalizing s with
  | nil => rfl
  | cons f fs ih => simp [run, ih]

/-- Number of ones among the lowest `n` binary digits. -/
def bitsSet : Nat → Nat → Nat
  | 0, _ => 0
  | n + 1, e => e % 2 + bitsSet n (e / 2)

theorem countP_bitsSet (n e : Nat) : (List.range n).countP (fun j => e.testBit j) = bitsSet n e := by
  induction n generalizing e with
  | zero => rfl
  | succ n ih =>
    rw [List.range_succ_eq_map, List.countP_cons, List.countP_map]
    have h : ((fun j => e.testBit j) ∘ Nat.succ) = fun j => (e / 2).testBit j := by
      funext j; simp [Nat.testBit_succ]
    rw [h, ih, bitsSet]
    rcases Nat.mod_two_eq_zero_or_one e with h0 | h0 <;> simp [Nat.testBit_zero, h0] <;> omega

theorem popcount_bitsSet (e : Nat) : popcount e = bitsSet 16 e := countP_bitsSet 16 e

/-- **C42 (partial)** From the start of a run: every frame is forwarded at most once, and only if some
error bit of it passed the throttle (and always then, if the queue takes it); a bit passes only
if it is set in the frame; per bit the number of frames for which it passed is throttled as
configured, provided the configured reset frequency is at most 10000; the error count is the
number of set bits. Missing: reset frequencies above 10000, where the claim is false because
the code uses the constant 10000 instead of the configured value. -/
theorem C42_throttled_partial (c : Cfg) (hf : 0 < c.resetFreq) (hf' : c.resetFreq ≤ 10000)
    (fs : List Frame) :
    (∀ j, Throttled c.thr c.resetFreq fs.length (passedBy j (run c init fs).2)) ∧
    (∀ (i : Nat) (f : Frame) (o : Out), fs[i]? = some f → (run c init fs).2[i]? = some o →
      o.pushes ≤ 1 ∧ (o.pushes = 1 → o.passed ≠ []) ∧
      ((∀ k, f.ok k = true) → o.passed ≠ [] → o.pushes = 1) ∧
      (∀ j ∈ o.passed, j < 16 ∧ f.err.testBit j = true)) ∧
    (run c init fs).1.total = (fs.map (fun f => bitsSet 16 f.err)).sum := by
  simp only [← popcount_bitsSet]
  refine ⟨?_, ?_, ?_⟩
  · intro j
    obtain ⟨h1, h2⟩ := run_bound c fs init (by simp [init]) j
    simp only [init, Nat.zero_add] at h1
    have hthr := h2 j
    simp only [init] at hthr
    unfold Throttled
    have hmono : (fs.length + 9999) / 10000 ≤ (fs.length + c.resetFreq - 1) / c.resetFreq := by
      rw [Nat.le_div_iff_mul_le hf]
      rcases Nat.eq_zero_or_pos fs.length with h0 | h0
      · rw [h0]; simp
      · have e : (fs.length + 9999) / 10000 = (fs.length - 1) / 10000 + 1 := by omega
        rw [e, Nat.add_mul]
        have := Nat.mul_le_mul_left ((fs.length - 1) / 10000) hf'
        have := Nat.div_mul_le_self (fs.length - 1) 10000
        omega
    show passedBy j (run c ⟨fun _ => 0, 0, 0⟩ fs).2 ≤ _
    omega
  · have key : ∀ (fs : List Frame) (s : St), (∀ k, s.ctr k ≤ c.thr) →
        ∀ (i : Nat) (f : Frame) (o : Out), fs[i]? = some f → (run c s fs).2[i]? = some o →
        o.pushes ≤ 1 ∧ (o.pushes = 1 → o.passed ≠ []) ∧
        ((∀ k, f.ok k = true) → o.passed ≠ [] → o.pushes = 1) ∧
        (∀ j ∈ o.passed, j < 16 ∧ f.err.testBit j = true) := by
      intro fs
      induction fs with
      | nil => intro s _ i f o h; simp at h
      | cons g fs ih =>
        intro s hs i f o h ho
        obtain ⟨f1, f2, f3, f4, f5, f6⟩ := frame_spec c s g hs
        have hrun : (run c s (g :: fs)).2 = (frame c s g).2 :: (run c (frame c s g).1 fs).2 := rfl
        rw [hrun] at ho
        cases i with
        | zero =>
          simp at h ho; subst h; subst ho
          exact ⟨f2, f3, f6, fun j hj => ⟨((f4 j).1 hj).1, ((f4 j).1 hj).2.1⟩⟩
        | succ i =>
          simp at h ho
          exact ih _ f1 i f o h ho
    exact key fs init (by simp [init])
  · have key : ∀ (fs : List Frame) (s : St),
        (run c s fs).1.total = s.total + (fs.map (fun f => popcount f.err)).sum := by
      intro fs
      induction fs with
      | nil => intro s; simp [run]
      | cons g fs ih =>
        intro s
        show (run c (frame c s g).1 fs).1.total = _
        rw [ih]
        simp [frame]; omega
    rw [key]; simp [init]

/-- Three frames with two bits, threshold 2. -/
example : (run ⟨2, 10000⟩ init [⟨3, fun _ => true⟩, ⟨1, fun _ => true⟩, ⟨1, fun _ => true⟩]).1.total = 4 :=
  ((C42_throttled_partial ⟨2, 10000⟩ (by decide) (by decide) _).2.2).trans (by decide)

theorem ctr_le_passed (c : Cfg) (fs : List Frame) (s : St) (hthr : ∀ k, s.ctr k ≤ c.thr) (j : Nat) :
    (run c s fs).1.ctr j ≤ s.ctr j + passedBy j (run c s fs).2 ∧ ∀ k, (run c s fs).1.ctr k ≤ c.thr := by
  induction fs generalizing s with
  | nil => exact ⟨Nat.le_add_right _ _, hthr⟩
  | cons f fs ih =>
    obtain ⟨f1, -, -, -, f5, -⟩ := frame_spec c s f hthr
    obtain ⟨i1, i2⟩ := ih (frame c s f).1 f1
    refine ⟨?_, i2⟩
    have hrun : run c s (f :: fs) = ((run c (frame c s f).1 fs).1, (frame c s f).2 :: (run c (frame c s f).1 fs).2) := rfl
    rw [hrun]
    simp only [passedBy, List.countP_cons] at *
    have hdec : decay c s j ≤ s.ctr j := by
      unfold decay
      split
      · exact Nat.sub_le _ _
      · exact Nat.le_refl _
    have hp := f5 j
    by_cases hm : j ∈ (frame c s f).2.passed
    · have := hp.1 hm
      simp only [hm, decide_true, if_true]
      omega
    · have := hp.2 hm
      simp only [hm, decide_false, Bool.false_eq_true, if_false]
      omega

/-- **C42 (nothing is held back too early)** After any stream of frames, if an error bit has been
forwarded fewer times than the threshold, the next frame in which it is set passes. -/
theorem C42_first_errors_pass (c : Cfg) (fs : List Frame) (f : Frame) (j : Nat) (hj : j < 16)
    (hset : f.err.testBit j = true) (hfew : passedBy j (run c init fs).2 < c.thr) :
    j ∈ (frame c (run c init fs).1 f).2.passed := by
  obtain ⟨h1, h2⟩ := ctr_le_passed c fs init (by simp [init]) j
  obtain ⟨-, -, -, f4, -, -⟩ := frame_spec c (run c init fs).1 f h2
  rw [f4]
  refine ⟨hj, hset, ?_⟩
  have : decay c (run c init fs).1 j ≤ (run c init fs).1.ctr j := by
    unfold decay
    split
    · exact Nat.sub_le _ _
    · exact Nat.le_refl _
  have h0 : init.ctr j = 0 := rfl
  omega

/-- After one frame with bit 0, threshold 2. -/
example : 0 ∈ (frame ⟨2, 10000⟩ (run ⟨2, 10000⟩ init [⟨3, fun _ => true⟩]).1 ⟨1, fun _ => true⟩).2.passed :=
  C42_first_errors_pass _ _ _ 0 (by decide) (by decide) (by decide)

/-- A frame whose bit 0 is set, with a queue that always takes it. -/
def bad : Frame := ⟨1, fun _ => true⟩

theorem bad_bits (c : Cfg) (n j : Nat) (ctr : Nat → Nat) (p : Bool) (o : Out) (hj : 0 < j) :
    bits c bad n j ctr p o = (ctr, o) := by
  induction n generalizing j with
  | zero => rfl
  | succ n ih =>
    have : bad.err.testBit j = false := by
      show Nat.testBit 1 j = false
      rw [Nat.testBit_eq_decide_div_mod_eq, Nat.div_eq_of_lt (Nat.one_lt_two_pow (by omega))]
      simp
    simp only [bits, this]
    exact ih (j + 1) (by omega)

/-- A permanently set bit with threshold 1 passes once per 10000 frames. -/
theorem bad_run (c : Cfg) (ht : c.thr = 1) (n : Nat) (s : St)
    (hs : (s.ctr 0 = 1 ∧ 0 < s.processed) ∨ (s.ctr 0 = 0 ∧ s.processed % 10000 = 0)) :
    passedBy 0 (run c s (List.replicate n bad)).2 + (s.processed + 9999) / 10000 =
      (s.processed + n + 9999) / 10000 := by
  induction n generalizing s with
  | zero => simp [run, passedBy]
  | succ n ih =>
    have hrun : (run c s (List.replicate (n+1) bad)).2 =
        (frame c s bad).2 :: (run c (frame c s bad).1 (List.replicate n bad)).2 := rfl
    have hfr : frame c s bad =
        if decay c s 0 < 1 then
          (⟨fun k => if k = 0 then decay c s 0 + 1 else decay c s k, s.total + popcount 1, s.processed + 1⟩,
            ⟨[0], 1⟩)
        else (⟨decay c s, s.total + popcount 1, s.processed + 1⟩, ⟨[], 0⟩) := by
      unfold frame
      have h0 : bad.err.testBit 0 = true := rfl
      rw [bits]
      simp only [h0, true_and, ht]
      split
      · rw [bad_bits _ _ _ _ _ _ (by omega)]; rfl
      · rw [bad_bits _ _ _ _ _ _ (by omega)]; rfl
    have hnext : ((frame c s bad).1.ctr 0 = 1 ∧ 0 < (frame c s bad).1.processed) ∧
        (frame c s bad).1.processed = s.processed + 1 ∧
        (if decide (0 ∈ (frame c s bad).2.passed) = true then 1 else 0) =
          (if s.processed % 10000 = 0 then 1 else 0) := by
      rw [hfr]
      unfold decay
      by_cases hp : s.processed % 10000 = 0
      · have hz : s.ctr 0 - 1 = 0 := by rcases hs with h | h <;> omega
        simp only [if_pos hp, hz]
        simp
      · have hz : s.ctr 0 = 1 := by
          rcases hs with h | h
          · exact h.1
          · exact absurd h.2 hp
        simp only [if_neg hp, hz]
        simp [hz]
    have := ih (frame c s bad).1 (Or.inl hnext.1)
    rw [hnext.2.1] at this
    rw [hrun]
    simp only [passedBy, List.countP_cons] at *
    rw [hnext.2.2]
    split <;> omega

theorem bad_run_init (c : Cfg) (ht : c.thr = 1) (n : Nat) :
    passedBy 0 (run c init (List.replicate n bad)).2 = (n + 9999) / 10000 := by
  have := bad_run c ht n init (Or.inr ⟨rfl, rfl⟩)
  have hp : init.processed = 0 := rfl
  rw [hp] at this
  omega

/-- **C42 is false of the code**: with threshold 1 and a configured reset frequency of one million
frames, a permanently set error bit is forwarded once per 10000 frames: 4 times within 30001
frames instead of at most twice. -/
theorem C42_reset_freq_ignored_counterexample :
    passedBy 0 (run ⟨1, 1000000⟩ init (List.replicate 30001 bad)).2 = 4 ∧
    ¬ Throttled 1 1000000 30001 (passedBy 0 (run ⟨1, 1000000⟩ init (List.replicate 30001 bad)).2) := by
  have h4 : passedBy 0 (run ⟨1, 1000000⟩ init (List.replicate 30001 bad)).2 = 4 :=
    bad_run_init _ rfl 30001
  refine ⟨h4, ?_⟩
  rw [h4]; unfold Throttled; omega

/-- Non-vacuity of the partial theorem: three frames, two bits, threshold 2. -/
example : (run ⟨2, 10000⟩ init [⟨3, fun _ => true⟩, ⟨1, fun _ => true⟩, ⟨1, fun _ => true⟩]).2 =
    [⟨[0, 1], 1⟩, ⟨[0], 1⟩, ⟨[], 0⟩] := by decide

end Verif.FrameErr
