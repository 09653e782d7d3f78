import Verif.ZeroCopyModel
import Mathlib.Data.List.Induction
/-
C56: the zero-copy recording writes exactly the payloads from the start payload onwards, in order, in aligned blocks.
Specification: the payload stream `S`, an infinite byte sequence in which payload `k` occupies the bytes from `k * sz`;
the file must be a prefix of the stream from the start payload on, ending at a payload boundary.
-/
namespace Verif.ZeroCopy

/-- Specification: bytes `a, …, a+len-1` of the stream. -/
def part (S : Nat → Nat) (a len : Nat) : List Nat := (List.range len).map (fun i => S (a + i))

/-- Specification: payload `k` of the stream. -/
def payload (S : Nat → Nat) (sz k : Nat) : List Nat := part S (k * sz) sz

/-- What the buffer guarantees at stream position `pos`: the newest payload `K` starts at or after `pos`, at most
`n` slots are in use, and the memory holds the stream from `pos` to the end of payload `K`. -/
def Held (c : Cfg) (S : Nat → Nat) (pos : Nat) (o : Obs) (K : Nat) : Prop :=
  o.back = some (K % c.n * c.sz) ∧ pos ≤ K * c.sz ∧ K * c.sz < pos + c.B ∧
  ∀ p, pos ≤ p → p < (K + 1) * c.sz → o.mem (p % c.B) = S p

/-- The `write` call takes every block completely. -/
def FullWrite (o : Obs) : Prop := ∀ len, o.res len = some len

theorem part_append (S : Nat → Nat) (a l m : Nat) : part S a l ++ part S (a + l) m = part S a (l + m) := by
  unfold part
  rw [List.range_add, List.map_append, List.map_map]
  congr 1
  apply List.map_congr_left
  intro x _
  simp [Nat.add_assoc]

theorem part_length (S : Nat → Nat) (a l : Nat) : (part S a l).length = l := by simp [part]

theorem part_payloads (S : Nat → Nat) (sz k m : Nat) :
    part S (k * sz) (m * sz) = (List.range m).flatMap (fun j => payload S sz (k + j)) := by
  induction m with
  | zero => simp [part]
  | succ m ih =>
    rw [Nat.succ_mul, ← part_append, ih, List.range_succ, List.flatMap_append]
    simp [payload, Nat.add_mul]

theorem slice_eq (c : Cfg) (S : Nat → Nat) (pos K cw len : Nat) (o : Obs) (h : Held c S pos o K)
    (hcw : cw = pos % c.B) (hB : cw + len ≤ c.B) (hK : pos + len ≤ (K + 1) * c.sz) :
    slice o.mem cw len = part S pos len := by
  unfold slice part
  apply List.map_congr_left
  intro i hi
  have hi' : i < len := List.mem_range.1 hi
  have h4 := h.2.2.2 (pos + i) (by omega) (by omega)
  have : (pos + i) % c.B = cw + i := by
    rw [hcw] at hB ⊢
    rw [Nat.add_mod, Nat.mod_eq_of_lt (a := i) (by omega), Nat.mod_eq_of_lt (by omega)]
  rw [this] at h4
  exact h4

/-- The state describes stream position `pos` of a recording that started at `p0`. -/
def At (c : Cfg) (S : Nat → Nat) (p0 pos : Nat) (s : St) : Prop :=
  s.cw = pos % c.B ∧ p0 ≤ pos ∧ s.file = part S p0 (pos - p0) ∧ s.reported = pos - p0 ∧ s.isOpen = true

theorem write_full (o : Obs) (hf : FullWrite o) (len : Nat) (d : Bool) (s : St) (ho : s.isOpen = true) (hl : 0 < len) :
    (write o len d s).file = s.file ++ slice o.mem s.cw len ∧
    (write o len d s).reported = s.reported + len ∧ (write o len d s).isOpen = true := by
  simp only [write, ho, if_true, hf len]
  refine ⟨?_, ?_, trivial⟩
  · rw [List.take_of_length_le]; simp [slice]
  · rw [if_neg]; simp; omega

/-- Where a round must arrive from stream position `pos` (specification): one chunk further if that stays before the
newest payload and inside the current lap of the ring, to the end of the lap if the newest payload is in the next lap,
otherwise nowhere. -/
def target (c : Cfg) (pos K : Nat) : Nat :=
  if (pos / c.B + 1) * c.B ≤ K * c.sz then min (pos + c.chunk) ((pos / c.B + 1) * c.B)
  else if pos + c.chunk < K * c.sz then pos + c.chunk else pos

theorem lap (c : Cfg) (S : Nat → Nat) (pos K : Nat) (o : Obs) (hn : 0 < c.n) (hs : 0 < c.sz)
    (h : Held c S pos o K) :
    ∃ q cw e, pos = q * c.B + cw ∧ cw < c.B ∧ cw = pos % c.B ∧ q = pos / c.B ∧ o.back = some e ∧ e + c.sz ≤ c.B ∧
      (K * c.sz = q * c.B + e ∧ cw ≤ e ∨ K * c.sz = q * c.B + c.B + e ∧ e < cw) := by
  have hB : 0 < c.B := Nat.mul_pos hn hs
  obtain ⟨h1, h2, h3, _⟩ := h
  have ek : K * c.sz = K / c.n * c.B + K % c.n * c.sz := by
    have : K = K / c.n * c.n + K % c.n := by rw [Nat.mul_comm]; exact (Nat.div_add_mod _ _).symm
    calc K * c.sz = (K / c.n * c.n + K % c.n) * c.sz := by rw [← this]
      _ = K / c.n * c.B + K % c.n * c.sz := by rw [Nat.add_mul, Cfg.B, Nat.mul_assoc]
  have he : K % c.n * c.sz + c.sz ≤ c.B := by
    have := Nat.mod_lt K hn
    calc K % c.n * c.sz + c.sz = (K % c.n + 1) * c.sz := by rw [Nat.add_mul, Nat.one_mul]
      _ ≤ c.n * c.sz := Nat.mul_le_mul_right _ (by omega)
  have ep : pos = pos / c.B * c.B + pos % c.B := by rw [Nat.mul_comm]; exact (Nat.div_add_mod _ _).symm
  have hm := Nat.mod_lt pos hB
  refine ⟨pos / c.B, pos % c.B, K % c.n * c.sz, ep, hm, rfl, rfl, h1, he, ?_⟩
  generalize pos / c.B = q at *
  generalize pos % c.B = cw at *
  generalize K % c.n * c.sz = e at *
  generalize K / c.n = q' at *
  rw [ek] at h2 h3
  have c1 : q' = q ∨ q' = q + 1 := by
    rcases Nat.lt_trichotomy q' q with h | h | h
    · exfalso
      have : (q' + 1) * c.B ≤ q * c.B := Nat.mul_le_mul_right _ h
      rw [Nat.add_mul] at this; omega
    · exact .inl h
    · right
      by_cases h' : q' = q + 1
      · exact h'
      · exfalso
        have : (q + 2) * c.B ≤ q' * c.B := Nat.mul_le_mul_right _ (by omega)
        rw [Nat.add_mul] at this; omega
  rcases c1 with rfl | rfl
  · left; rw [ek]; omega
  · right; rw [ek, Nat.add_mul] at *; omega

theorem step_room (c : Cfg) (s : St) (o : Obs) (e : Nat) (hb : o.back = some e)
    (h : s.cw + c.chunk < e ∨ e < s.cw ∧ s.cw + c.chunk < c.B) (hB : s.cw + c.chunk < c.B) :
    step c s o = { write o c.chunk true s with cw := s.cw + c.chunk } := by
  unfold step
  by_cases h1 : s.cw + c.chunk < e
  · simp only [hb, roomBefore, h1, decide_true, if_true]
    rw [if_neg]; omega
  · have h2 : e < s.cw := by omega
    simp only [hb, roomBefore, isBehind, h1, h2, hB, decide_true, decide_false, if_true, Bool.false_eq_true, if_false]
    rw [if_neg]; omega

theorem step_tail (c : Cfg) (s : St) (o : Obs) (e : Nat) (hb : o.back = some e) (h : e < s.cw)
    (hB : ¬ s.cw + c.chunk < c.B) (h0 : 0 < c.B) :
    step c s o = { write o (c.B - s.cw) false s with cw := 0 } := by
  unfold step
  have h1 : ¬ s.cw + c.chunk < e := by omega
  simp only [hb, roomBefore, isBehind, h1, h, hB, decide_true, decide_false, if_true, Bool.false_eq_true, if_false]
  rw [if_neg]; omega

theorem step_none (c : Cfg) (s : St) (o : Obs) (e : Nat) (hb : o.back = some e) (h : s.cw ≤ e)
    (h1 : ¬ s.cw + c.chunk < e) (hB : s.cw < c.B) : step c s o = s := by
  unfold step
  have h2 : ¬ e < s.cw := by omega
  simp only [hb, roomBefore, isBehind, h1, h2, decide_false, Bool.false_eq_true, if_false]
  rw [if_neg]; omega

theorem step_at (c : Cfg) (S : Nat → Nat) (p0 pos K : Nat) (o : Obs) (s : St) (hn : 0 < c.n) (hs : 0 < c.sz)
    (hc : 0 < c.chunk) (hf : FullWrite o) (h : Held c S pos o K) (ha : At c S p0 pos s) :
    At c S p0 (target c pos K) (step c s o) ∧ pos ≤ target c pos K ∧ target c pos K ≤ K * c.sz := by
  obtain ⟨q, cw, e, ep, hcw, ecw, eq, eb, he, hcase⟩ := lap c S pos K o hn hs h
  obtain ⟨a1, a2, a3, a4, a5⟩ := ha
  rw [← ecw] at a1
  have hB : 0 < c.B := Nat.mul_pos hn hs
  have hKs : K * c.sz < (K + 1) * c.sz := by rw [Nat.add_mul]; omega
  have adv : ∀ (len : Nat) (d : Bool), 0 < len → cw + len ≤ c.B → pos + len ≤ K * c.sz →
      (write o len d s).file = part S p0 (pos + len - p0) ∧ (write o len d s).reported = pos + len - p0 ∧
      (write o len d s).isOpen = true := by
    intro len d h0 h1 h2
    obtain ⟨w1, w2, w3⟩ := write_full o hf len d s a5 h0
    refine ⟨?_, by omega, w3⟩
    rw [w1, a3, a1, slice_eq c S pos K cw len o h ecw h1 (by omega)]
    have e1 : pos = p0 + (pos - p0) := by omega
    conv => lhs; rhs; rw [e1]
    rw [part_append]
    congr 1; omega
  have elap : (pos / c.B + 1) * c.B = q * c.B + c.B := by rw [← eq, Nat.add_mul, Nat.one_mul]
  have modp : ∀ x, x < c.B → (q * c.B + x) % c.B = x := by
    intro x hx; rw [Nat.mul_add_mod_self_right, Nat.mod_eq_of_lt hx]
  rcases hcase with ⟨ek, hle⟩ | ⟨ek, hlt⟩
  · by_cases hr : cw + c.chunk < e
    · have ht : target c pos K = pos + c.chunk := by
        unfold target; rw [elap, if_neg (by omega), if_pos (by omega)]
      have hstep : step c s o = { write o c.chunk true s with cw := cw + c.chunk } := by
        rw [step_room c s o e eb (by omega) (by omega), a1]
      obtain ⟨w1, w2, w3⟩ := adv c.chunk true hc (by omega) (by omega)
      rw [ht, hstep]
      refine ⟨⟨?_, by omega, w1, w2, w3⟩, by omega, by omega⟩
      show cw + c.chunk = _
      rw [ep, Nat.add_assoc, modp _ (by omega)]
    · have ht : target c pos K = pos := by
        unfold target; rw [elap, if_neg (by omega), if_neg (by omega)]
      have hstep : step c s o = s := by
        exact step_none c s o e eb (by omega) (by omega) (by omega)
      rw [ht, hstep]
      exact ⟨⟨by rw [a1, ecw], a2, a3, a4, a5⟩, by omega, by omega⟩
  · by_cases hr : cw + c.chunk < c.B
    · have ht : target c pos K = pos + c.chunk := by
        unfold target; rw [elap, if_pos (by omega)]; omega
      have hstep : step c s o = { write o c.chunk true s with cw := cw + c.chunk } := by
        rw [step_room c s o e eb (by omega) (by omega), a1]
      obtain ⟨w1, w2, w3⟩ := adv c.chunk true hc (by omega) (by omega)
      rw [ht, hstep]
      refine ⟨⟨?_, by omega, w1, w2, w3⟩, by omega, by omega⟩
      show cw + c.chunk = _
      rw [ep, Nat.add_assoc, modp _ (by omega)]
    · have ht : target c pos K = pos + (c.B - cw) := by
        unfold target; rw [elap, if_pos (by omega)]; omega
      have hstep : step c s o = { write o (c.B - cw) false s with cw := 0 } := by
        rw [step_tail c s o e eb (by omega) (by omega) hB, a1]
      obtain ⟨w1, w2, w3⟩ := adv (c.B - cw) false (by omega) (by omega) (by omega)
      rw [ht, hstep]
      refine ⟨⟨?_, by omega, w1, w2, w3⟩, by omega, by omega⟩
      show 0 = _
      rw [show pos + (c.B - cw) = (q + 1) * c.B from by rw [Nat.add_mul]; omega, Nat.mul_mod_left]

/-- The buffer and the file system do their part in every round: at the position reached so far the buffer still holds
the outstanding payloads, and writes are complete. -/
def GoodRun (c : Cfg) (S : Nat → Nat) (k0 : Nat) (os : List Obs) : Prop :=
  ∀ pre o post, os = pre ++ o :: post →
    FullWrite o ∧ ∃ K, Held c S (k0 * c.sz + (run c (begin c k0 [] true) pre).file.length) o K

theorem run_snoc (c : Cfg) (s : St) (os : List Obs) (o : Obs) : run c s (os ++ [o]) = step c (run c s os) o := by
  simp [run]

theorem begin_at (c : Cfg) (S : Nat → Nat) (k0 : Nat) : At c S (k0 * c.sz) (k0 * c.sz) (begin c k0 [] true) := by
  refine ⟨?_, Nat.le_refl _, by simp [begin, part], by simp [begin], rfl⟩
  simp only [begin, Cfg.B]
  rw [Nat.mul_mod_mul_right]

theorem run_at (c : Cfg) (S : Nat → Nat) (k0 : Nat) (hn : 0 < c.n) (hs : 0 < c.sz) (hc : 0 < c.chunk)
    (os : List Obs) (h : GoodRun c S k0 os) :
    ∃ pos, At c S (k0 * c.sz) pos (run c (begin c k0 [] true) os) ∧
      pos = k0 * c.sz + (run c (begin c k0 [] true) os).file.length := by
  induction os using List.reverseRecOn with
  | nil => exact ⟨k0 * c.sz, begin_at c S k0, by simp [run, begin]⟩
  | append_singleton os o ih =>
    obtain ⟨pos, ha, hp⟩ := ih (by
      intro pre o' post e
      exact h pre o' (post ++ [o]) (by simp [e]))
    obtain ⟨hf, K, hK⟩ := h os o [] rfl
    rw [← hp] at hK
    rw [run_snoc]
    have hst := (step_at c S (k0 * c.sz) pos K o _ hn hs hc hf hK ha).1
    refine ⟨target c pos K, hst, ?_⟩
    rw [hst.2.2.1, part_length]
    have := hst.2.1
    omega

/-- C56: for every start payload, every number of rounds and every concurrent activity of the producer, the finished
file consists of the payloads from the start payload onwards, complete, in order and without gaps or repetitions, and
the reported number of bytes is its length. Missing: what happens when the buffer or the file system do not do their
part (counterexamples below) and the protection of the outstanding payloads from cleanup (C26, C58). -/
theorem C56_recorded_stream_partial (c : Cfg) (S : Nat → Nat) (k0 : Nat) (hn : 0 < c.n) (hs : 0 < c.sz)
    (hc : 0 < c.chunk) (os : List Obs) (o : Obs) (h : GoodRun c S k0 (os ++ [o])) :
    ∃ m, (finish c (run c (begin c k0 [] true) os) o).file =
        (List.range m).flatMap (fun j => payload S c.sz (k0 + j)) ∧
      (finish c (run c (begin c k0 [] true) os) o).reported = m * c.sz ∧
      (run c (begin c k0 [] true) os).file.length ≤ m * c.sz ∧
      m * c.sz < (run c (begin c k0 [] true) os).file.length + c.sz := by
  obtain ⟨pos, ha, hp⟩ := run_at c S k0 hn hs hc os (by
    intro pre o' post e
    exact h pre o' (post ++ [o]) (by simp [e]))
  obtain ⟨hf, K, hK⟩ := h os o [] rfl
  rw [← hp] at hK
  generalize run c (begin c k0 [] true) os = s at *
  obtain ⟨a1, a2, a3, a4, a5⟩ := ha
  have hBpos : 0 < c.B := Nat.mul_pos hn hs
  -- payload number and offset inside it
  have ecw : s.cw / c.sz * c.sz + pos % c.sz = s.cw := by
    have : s.cw % c.sz = pos % c.sz := by
      rw [a1, Cfg.B, Nat.mod_mul_left_mod]
    rw [← this, Nat.mul_comm]; exact Nat.div_add_mod _ _
  have epos : pos / c.sz * c.sz + pos % c.sz = pos := by rw [Nat.mul_comm]; exact Nat.div_add_mod _ _
  have hr : pos % c.sz < c.sz := Nat.mod_lt _ hs
  have hk0 : k0 ≤ pos / c.sz := by rw [Nat.le_div_iff_mul_le hs]; exact a2
  by_cases hz : pos % c.sz = 0
  · refine ⟨pos / c.sz - k0, ?_⟩
    have e1 : (pos / c.sz - k0) * c.sz = pos - k0 * c.sz := by rw [Nat.sub_mul]; omega
    have ef : finish c s o = { s with isOpen := false } := by
      unfold finish
      dsimp only
      rw [if_neg]; omega
    have e2 : s.file.length = pos - k0 * c.sz := by rw [a3, part_length]
    rw [ef]
    refine ⟨?_, by simp only; omega, by omega, by omega⟩
    show s.file = _
    rw [a3, ← e1, part_payloads]
  · refine ⟨pos / c.sz + 1 - k0, ?_⟩
    have e1 : (pos / c.sz + 1 - k0) * c.sz = pos - k0 * c.sz + (c.sz - pos % c.sz) := by
      rw [Nat.sub_mul, Nat.add_mul]; omega
    have elen : s.cw / c.sz * c.sz + c.sz - s.cw = c.sz - pos % c.sz := by omega
    have ef : finish c s o = { write o (c.sz - pos % c.sz) false s with isOpen := false } := by
      unfold finish
      simp only [elen]
      rw [if_pos]; omega
    have hKle : pos / c.sz ≤ K := by
      have h2 := hK.2.1
      calc pos / c.sz ≤ K * c.sz / c.sz := Nat.div_le_div_right h2
        _ = K := Nat.mul_div_cancel _ hs
    have hKs : (pos / c.sz + 1) * c.sz ≤ (K + 1) * c.sz := Nat.mul_le_mul_right _ (by omega)
    rw [Nat.add_mul (pos / c.sz)] at hKs
    have hcwB : s.cw + (c.sz - pos % c.sz) ≤ c.B := by
      have hlt : s.cw < c.n * c.sz := by rw [a1]; exact Nat.mod_lt _ hBpos
      have h3 : s.cw / c.sz < c.n := by rw [Nat.div_lt_iff_lt_mul hs]; exact hlt
      have h4 : (s.cw / c.sz + 1) * c.sz ≤ c.n * c.sz := Nat.mul_le_mul_right _ (by omega)
      rw [Nat.add_mul] at h4
      unfold Cfg.B; omega
    obtain ⟨w1, w2, _⟩ := write_full o hf (c.sz - pos % c.sz) false s a5 (by omega)
    have e2 : s.file.length = pos - k0 * c.sz := by rw [a3, part_length]
    rw [ef]
    refine ⟨?_, by simp only; omega, by omega, by omega⟩
    show (write o _ false s).file = _
    rw [w1, slice_eq c S pos K s.cw _ o hK a1 hcwB (by omega), a3]
    have e3 : pos = k0 * c.sz + (pos - k0 * c.sz) := by omega
    conv => lhs; rhs; rw [e3]
    rw [part_append, ← e3, ← e1, part_payloads]

/-- A concrete buffer: three slots of two bytes, chunks of three bytes; the stream is the identity. -/
def exCfg : Cfg := ⟨2, 3, 1, 0, 3⟩

/-- An observation of `exCfg` at which payloads up to number `K` were stored. -/
def exObs (K : Nat) : Obs :=
  ⟨fun a => if a < 2 * (K % 3) + 2 then K / 3 * 6 + a else K / 3 * 6 + a - 6, some (K % 3 * 2), some⟩

/-- A recording that runs over the end of the ring memory. -/
example : (finish exCfg (run exCfg (begin exCfg 1 [] true) [exObs 2, exObs 3, exObs 4, exObs 5]) (exObs 6)).file =
    [2, 3, 4, 5, 6, 7, 8, 9] := by decide

theorem exHeld (pos K : Nat) (h1 : pos ≤ 2 * K) (h2 : 2 * K < pos + 5) : Held exCfg id pos (exObs K) K := by
  refine ⟨rfl, by simp only [exCfg]; omega, by simp only [exCfg, Cfg.B]; omega, ?_⟩
  intro p hp hp'
  simp only [exCfg, Cfg.B, exObs, id] at *
  split <;> omega

example : GoodRun exCfg id 1 ([exObs 2, exObs 3, exObs 4, exObs 5] ++ [exObs 6]) := by
  intro pre o post e
  match pre, e with
  | [], e =>
    simp at e; obtain ⟨rfl, _⟩ := e
    exact ⟨fun _ => rfl, 2, exHeld _ _ (by decide) (by decide)⟩
  | [_], e =>
    simp at e; obtain ⟨rfl, rfl, _⟩ := e
    exact ⟨fun _ => rfl, 3, exHeld _ _ (by decide) (by decide)⟩
  | [_, _], e =>
    simp at e; obtain ⟨rfl, rfl, rfl, _⟩ := e
    exact ⟨fun _ => rfl, 4, exHeld _ _ (by decide) (by decide)⟩
  | [_, _, _], e =>
    simp at e; obtain ⟨rfl, rfl, rfl, rfl, _⟩ := e
    exact ⟨fun _ => rfl, 5, exHeld _ _ (by decide) (by decide)⟩
  | [_, _, _, _], e =>
    simp at e; obtain ⟨rfl, rfl, rfl, rfl, rfl, _⟩ := e
    exact ⟨fun _ => rfl, 6, exHeld _ _ (by decide) (by decide)⟩
  | _ :: _ :: _ :: _ :: _ :: x, e =>
    exfalso
    have := congrArg List.length e
    simp at this

/-- C56, progress: a round that writes nothing leaves at most one chunk before the newest payload outstanding. -/
theorem C56_lag (c : Cfg) (S : Nat → Nat) (p0 pos K : Nat) (o : Obs) (s : St) (hn : 0 < c.n) (hs : 0 < c.sz)
    (hc : 0 < c.chunk) (hf : FullWrite o) (h : Held c S pos o K) (ha : At c S p0 pos s)
    (hidle : (step c s o).file = s.file) : K * c.sz ≤ pos + c.chunk := by
  obtain ⟨hst, _, _⟩ := step_at c S p0 pos K o s hn hs hc hf h ha
  have h1 := hst.2.2.1
  rw [hidle, ha.2.2.1] at h1
  have h2 := congrArg List.length h1
  rw [part_length, part_length] at h2
  have h3 : target c pos K = pos := by have := hst.2.1; have := ha.2.1; omega
  unfold target at h3
  have h4 : pos < (pos / c.B + 1) * c.B := by
    rw [Nat.add_mul, Nat.one_mul]
    have hB : 0 < c.B := Nat.mul_pos hn hs
    have := Nat.mod_lt pos hB
    have := Nat.div_add_mod pos c.B
    rw [Nat.mul_comm] at this
    omega
  split at h3
  · omega
  · split at h3 <;> omega

example : (step exCfg (begin exCfg 1 [] true) (exObs 2)).file = (begin exCfg 1 [] true).file ∧
    At exCfg id 2 2 (begin exCfg 1 [] true) ∧ Held exCfg id 2 (exObs 2) 2 :=
  ⟨by decide, by refine ⟨by decide, by decide, by decide, by decide, by decide⟩, exHeld 2 2 (by decide) (by decide)⟩

/-- C56, blocks: if the buffer memory is aligned, its size and the chunk size are multiples of the alignment and the
start payload is aligned, then every write made with `O_DIRECT` has aligned address, length and file position,
whatever the producer does. -/
theorem C56_aligned (c : Cfg) (k0 : Nat) (hbase : c.align ∣ c.base) (hB : c.align ∣ c.B) (hchunk : c.align ∣ c.chunk)
    (hstart : c.align ∣ k0 % c.n * c.sz) (os : List Obs) (hf : ∀ o ∈ os, FullWrite o) :
    ∀ w ∈ (run c (begin c k0 [] true) os).direct,
      c.align ∣ c.base + w.1 ∧ c.align ∣ w.2.1 ∧ c.align ∣ w.2.2 := by
  suffices H : c.align ∣ (run c (begin c k0 [] true) os).cw ∧
      c.align ∣ (run c (begin c k0 [] true) os).file.length ∧ (run c (begin c k0 [] true) os).isOpen = true ∧
      ∀ w ∈ (run c (begin c k0 [] true) os).direct,
        c.align ∣ c.base + w.1 ∧ c.align ∣ w.2.1 ∧ c.align ∣ w.2.2 from H.2.2.2
  induction os using List.reverseRecOn with
  | nil => exact ⟨hstart, by simp [run, begin], rfl, by simp [run, begin]⟩
  | append_singleton os o ih =>
    obtain ⟨i1, i2, i3, i4⟩ := ih (fun o ho => hf o (by simp [ho]))
    rw [run_snoc]
    generalize run c (begin c k0 [] true) os = s at *
    have hfo := hf o (by simp)
    have wl : ∀ len d, (write o len d s).file.length = s.file.length + len := by
      intro len d
      simp [write, i3, hfo len, slice]
    have wo : ∀ len d, (write o len d s).isOpen = true := by intro len d; exact i3
    have key : ∀ s' : St, (c.align ∣ s'.cw ∧ c.align ∣ s'.file.length ∧ s'.isOpen = true ∧
        ∀ w ∈ s'.direct, c.align ∣ c.base + w.1 ∧ c.align ∣ w.2.1 ∧ c.align ∣ w.2.2) →
        (fun t : St => c.align ∣ t.cw ∧ c.align ∣ t.file.length ∧ t.isOpen = true ∧
        ∀ w ∈ t.direct, c.align ∣ c.base + w.1 ∧ c.align ∣ w.2.1 ∧ c.align ∣ w.2.2)
          (if s'.cw = c.B then { s' with cw := 0 } else s') := by
      intro s' h
      split
      · exact ⟨Nat.dvd_zero _, h.2⟩
      · exact h
    have chunkw : c.align ∣ ({ write o c.chunk true s with cw := s.cw + c.chunk } : St).cw ∧
        c.align ∣ ({ write o c.chunk true s with cw := s.cw + c.chunk } : St).file.length ∧
        ({ write o c.chunk true s with cw := s.cw + c.chunk } : St).isOpen = true ∧
        ∀ w ∈ ({ write o c.chunk true s with cw := s.cw + c.chunk } : St).direct,
          c.align ∣ c.base + w.1 ∧ c.align ∣ w.2.1 ∧ c.align ∣ w.2.2 := by
      refine ⟨Nat.dvd_add i1 hchunk, ?_, i3, ?_⟩
      · show c.align ∣ (write o c.chunk true s).file.length
        rw [wl]; exact Nat.dvd_add i2 hchunk
      · intro w hw
        simp only [write, if_true, List.mem_append, List.mem_singleton] at hw
        rcases hw with hw | rfl
        · exact i4 w hw
        · exact ⟨Nat.dvd_add hbase i1, hchunk, i2⟩
    unfold step
    apply key
    split
    · exact chunkw
    · split
      · split
        · exact chunkw
        · refine ⟨Nat.dvd_zero _, ?_, i3, ?_⟩
          · show c.align ∣ (write o _ false s).file.length
            rw [wl]; exact Nat.dvd_add i2 (Nat.dvd_sub hB i1)
          · intro w hw
            simp only [write] at hw
            exact i4 w (by simpa using hw)
      · exact ⟨i1, i2, i3, i4⟩

/-- WIB payloads in a 4 KiB aligned buffer of 128 slots. -/
example : (4096 : Nat) ∣ (Cfg.mk 5568 128 4096 8192 8388608).B ∧ (4096 : Nat) ∣ 64 % 128 * 5568 ∧
    (4096 : Nat) ∣ 8388608 := by decide

/-- C56, start: if an aligned payload is stored, recording starts with the first such payload. -/
theorem C56_start_partial (c : Cfg) (ha : 0 < c.align) (k m j : Nat) (hj : j < m)
    (hal : c.align ∣ c.base + (k + j) % c.n * c.sz) :
    ∃ i, i ≤ j ∧ findStart c k m = .ok (k + i) ∧ c.align ∣ c.base + (k + i) % c.n * c.sz ∧
      ∀ i', i' < i → ¬ c.align ∣ c.base + (k + i') % c.n * c.sz := by
  induction m generalizing k j with
  | zero => omega
  | succ m ih =>
    unfold findStart
    rw [if_neg (by omega)]
    by_cases h : (c.base + k % c.n * c.sz) % c.align = 0
    · exact ⟨0, by omega, by rw [if_neg (by omega)]; rfl, Nat.dvd_of_mod_eq_zero h, by omega⟩
    · rw [if_pos h]
      have hj0 : j ≠ 0 := by
        rintro rfl
        exact h (Nat.mod_eq_zero_of_dvd hal)
      obtain ⟨i, h1, h2, h3, h4⟩ := ih (k + 1) (j - 1) (by omega)
        (by rw [show k + 1 + (j - 1) = k + j from by omega]; exact hal)
      refine ⟨i + 1, by omega, by rw [h2]; congr 1; omega, by
        rw [show k + (i + 1) = k + 1 + i from by omega]; exact h3, ?_⟩
      intro i' hi' hd
      cases i' with
      | zero => exact h (Nat.mod_eq_zero_of_dvd hd)
      | succ i' =>
        apply h4 i' (by omega)
        rw [show k + 1 + i' = k + (i' + 1) from by omega]; exact hd

example : findStart (Cfg.mk 5568 128 4096 8192 8388608) 60 10 = .ok 64 := by decide

/-- C56 is false when no stored payload is aligned, which is common for a short buffer content: with WIB payloads only
every 64th slot is aligned. The search then leaves the buffer. -/
theorem C56_no_aligned_payload_counterexample :
    findStart (Cfg.mk 5568 128 4096 8192 8388608) 1 63 = .ub .outOfBounds := by decide

/-- C56 is false of a buffer configured without alignment, which the configuration only warns about. -/
theorem C56_no_alignment_counterexample :
    findStart (Cfg.mk 5568 128 0 8192 8388608) 0 10 = .ub .divByZero := by decide

/-- C56 is false of failing writes: a result of -1 counts as success. -/
theorem C56_failed_write_counterexample :
    (step exCfg (begin exCfg 0 [] true) ⟨fun a => a, some 4, fun _ => none⟩).file = [] ∧
    (step exCfg (begin exCfg 0 [] true) ⟨fun a => a, some 4, fun _ => none⟩).reported = 3 := by decide

/-- C56 is false of every later recording without a new configuration: the first one closed the file and nothing
reopens it, so nothing is written, although bytes are reported. -/
theorem C56_second_recording_counterexample (c : Cfg) (k0 k1 : Nat) (f : List Nat) (os os' : List Obs) (o o' : Obs) :
    let s1 := finish c (run c (begin c k0 f true) os) o
    let s2 := finish c (run c (begin c k1 s1.file s1.isOpen) os') o'
    s1.isOpen = false ∧ s2.file = s1.file := by
  intro s1 s2
  refine ⟨rfl, ?_⟩
  have hw : ∀ (o : Obs) len d (s : St), s.isOpen = false →
      (write o len d s).file = s.file ∧ (write o len d s).isOpen = false := by
    intro o len d s h
    simp [write, h]
  have hstep : ∀ (s : St) (o : Obs), s.isOpen = false →
      (step c s o).file = s.file ∧ (step c s o).isOpen = false := by
    intro s o h
    have key : ∀ s' : St, s'.file = s.file ∧ s'.isOpen = false →
        (fun t : St => t.file = s.file ∧ t.isOpen = false) (if s'.cw = c.B then { s' with cw := 0 } else s') := by
      intro s' hs; split <;> exact hs
    unfold step
    apply key
    split
    · exact hw o c.chunk true s h
    · split
      · split
        · exact hw o c.chunk true s h
        · exact hw o (c.B - s.cw) false s h
      · exact ⟨rfl, h⟩
  have hrun : ∀ (os : List Obs) (s : St), s.isOpen = false →
      (run c s os).file = s.file ∧ (run c s os).isOpen = false := by
    intro os
    induction os with
    | nil => intro s h; exact ⟨rfl, h⟩
    | cons o os ih =>
      intro s h
      obtain ⟨e1, e2⟩ := hstep s o h
      obtain ⟨e3, e4⟩ := ih (step c s o) e2
      exact ⟨by rw [show run c s (o :: os) = run c (step c s o) os from rfl, e3, e1], e4⟩
  obtain ⟨r1, r2⟩ := hrun os' (begin c k1 s1.file s1.isOpen) rfl
  show (finish c _ o').file = _
  unfold finish
  dsimp only
  split
  · exact (hw o' _ false _ r2).1.trans r1
  · exact r1

/-- The bytes reported by such a recording. -/
theorem C56_second_recording_reports : (run exCfg (begin exCfg 0 [] false) [exObs 2]).reported = 3 := by decide

/-- If the buffer is emptied before the end pointer is read (`back()` is null), old memory is written. -/
theorem C56_empty_buffer_counterexample :
    (step exCfg (begin exCfg 1 [] true) ⟨fun a => 100 + a, none, some⟩).file = [102, 103, 104] := by decide

end Verif.ZeroCopy
