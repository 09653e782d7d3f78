import Verif.FormatModel
/-
C40: timestamps written to a payload read back unchanged, for every 64-bit value; faked timestamps are evenly
spaced. Specification: plain equations between the accessors; nothing else of the payload changes.
-/
namespace Verif.Format
open Verif.Search (u64)

theorem and_mask (x k n : Nat) : x &&& ((2 ^ n - 1) <<< k) = (x / 2 ^ k % 2 ^ n) * 2 ^ k := by
  apply Nat.eq_of_testBit_eq
  intro i
  rw [← Nat.shiftLeft_eq, Nat.testBit_and, Nat.testBit_shiftLeft, Nat.testBit_shiftLeft,
    Nat.testBit_two_pow_sub_one, Nat.testBit_mod_two_pow, Nat.testBit_div_two_pow]
  by_cases h : k ≤ i
  · simp [h, Bool.and_comm]
  · simp [h]

theorem and16 (x : Nat) : x &&& 0xFFFF = x % 65536 := by
  have := and_mask x 0 16; simpa using this
theorem and32 (x : Nat) : x &&& 0xFFFF0000 = (x / 65536 % 65536) * 65536 := by
  have := and_mask x 16 16; simpa using this
theorem and48 (x : Nat) : x &&& 0xFFFF00000000 = (x / 4294967296 % 65536) * 4294967296 := by
  have := and_mask x 32 16; simpa using this

theorem getTs_eq (h : TpHeader) :
    h.getTs = u64 (h.t1 / 65536 % 65536 + h.t1 % 65536 * 65536 + h.t2 / 65536 % 65536 * 4294967296 +
      h.t2 % 65536 * 281474976710656) := by
  simp only [TpHeader.getTs, and16, and32, Nat.shiftLeft_eq, Nat.shiftRight_eq_div_pow, u64]
  omega

theorem setTs_eq (h : TpHeader) (ts : Nat) :
    h.setTs ts = { h with
      t1 := ts % 65536 * 65536 + ts / 65536 % 65536
      t2 := ts / 4294967296 % 65536 * 65536 + ts / 281474976710656 % 65536 } := by
  simp only [TpHeader.setTs, and16, and32, and48, Nat.shiftLeft_eq, Nat.shiftRight_eq_div_pow, u32,
    TpHeader.mk.injEq, and_true]
  rw [show (2 : Nat) ^ 48 = 281474976710656 from rfl, show (2 : Nat) ^ 16 = 65536 from rfl]
  have h1 : ts % 65536 < 65536 := Nat.mod_lt _ (by decide)
  have h2 : ts / 65536 % 65536 < 65536 := Nat.mod_lt _ (by decide)
  have h3 : ts / 4294967296 % 65536 < 65536 := Nat.mod_lt _ (by decide)
  have h4 : ts / 281474976710656 % 65536 < 65536 := Nat.mod_lt _ (by decide)
  generalize ts % 65536 = a at *
  generalize ts / 65536 % 65536 = b at *
  generalize ts / 4294967296 % 65536 = c at *
  generalize ts / 281474976710656 % 65536 = d at *
  omega

theorem digits (ts : Nat) (hts : ts < 2 ^ 64) : ∃ a b c d, a < 65536 ∧ b < 65536 ∧ c < 65536 ∧ d < 65536 ∧
    ts = a + b * 65536 + c * 4294967296 + d * 281474976710656 :=
  ⟨ts % 65536, ts / 65536 % 65536, ts / 4294967296 % 65536, ts / 281474976710656,
    by omega, by omega, by omega, by omega, by omega⟩

theorem undigits (a b c d : Nat) (ha : a < 65536) (hb : b < 65536) (hc : c < 65536) (hd : d < 65536) :
    (a + b * 65536 + c * 4294967296 + d * 281474976710656) % 65536 = a ∧
    (a + b * 65536 + c * 4294967296 + d * 281474976710656) / 65536 % 65536 = b ∧
    (a + b * 65536 + c * 4294967296 + d * 281474976710656) / 4294967296 % 65536 = c ∧
    (a + b * 65536 + c * 4294967296 + d * 281474976710656) / 281474976710656 % 65536 = d ∧
    u64 (a + b * 65536 + c * 4294967296 + d * 281474976710656) =
      a + b * 65536 + c * 4294967296 + d * 281474976710656 := by
  refine ⟨by omega, by omega, by omega, by omega, ?_⟩
  simp only [u64]; omega

theorem pair (a b : Nat) (ha : a < 65536) (hb : b < 65536) :
    (a * 65536 + b) / 65536 % 65536 = a ∧ (a * 65536 + b) % 65536 = b := by omega

/-- C40, raw trigger primitives: the timestamp reads back unchanged and no other field changes. -/
theorem C40_raw_tp (h : TpHeader) (ts : Nat) (hts : ts < 2 ^ 64) :
    (h.setTs ts).getTs = ts ∧ (h.setTs ts).nhits = h.nhits ∧ (h.setTs ts).rest = h.rest := by
  refine ⟨?_, rfl, rfl⟩
  obtain ⟨a, b, c, d, ha, hb, hc, hd, rfl⟩ := digits ts hts
  obtain ⟨e1, e2, e3, e4, e5⟩ := undigits a b c d ha hb hc hd
  rw [getTs_eq, setTs_eq]
  simp only [e1, e2, e3, e4, pair a b ha hb, pair c d hc hd, e5]

example : (TpHeader.setTs ⟨7, 9, 3, [1]⟩ (2 ^ 64 - 2)).getTs = 2 ^ 64 - 2 :=
  (C40_raw_tp _ _ (by decide)).1

/-- The other direction: writing back the timestamp of a header leaves the header unchanged. -/
theorem C40_raw_tp_stable (h : TpHeader) (h1 : h.t1 < 2 ^ 32) (h2 : h.t2 < 2 ^ 32) :
    h.setTs h.getTs = h := by
  obtain ⟨t1, t2, n, r⟩ := h
  simp only at h1 h2
  obtain ⟨a, b, ha, hb, rfl⟩ : ∃ a b, a < 65536 ∧ b < 65536 ∧ t1 = a * 65536 + b :=
    ⟨t1 / 65536, t1 % 65536, by omega, by omega, by omega⟩
  obtain ⟨c, d, hc, hd, rfl⟩ : ∃ a b, a < 65536 ∧ b < 65536 ∧ t2 = a * 65536 + b :=
    ⟨t2 / 65536, t2 % 65536, by omega, by omega, by omega⟩
  obtain ⟨e1, e2, e3, e4, e5⟩ := undigits a b c d ha hb hc hd
  rw [setTs_eq, getTs_eq]
  simp only [e1, e2, e3, e4, pair a b ha hb, pair c d hc hd, e5]

example : (TpHeader.setTs ⟨7, 9, 3, [1]⟩ 0x0123456789ABCDEF) = ⟨0xCDEF89AB, 0x45670123, 3, [1]⟩ := by decide

theorem sspSplit4 (ts : Nat) : sspSplit 4 ts =
    [ts % 65536, ts / 65536 % 65536, ts / 4294967296 % 65536, ts / 281474976710656 % 65536] := by
  simp only [sspSplit, and16, Nat.shiftRight_eq_div_pow, u16, List.cons.injEq, and_true]
  omega

/-- C40, SSP: the timestamp reads back unchanged and no other field changes. -/
theorem C40_ssp (s : Ssp) (ts : Nat) (hts : ts < 2 ^ 64) :
    (s.setTs ts).getTs = ts ∧ (s.setTs ts).rest = s.rest ∧ (s.setTs ts).w.drop 4 = s.w.drop 4 := by
  refine ⟨?_, rfl, ?_⟩
  · simp only [Ssp.getTs, Ssp.setTs, sspSplit4]
    simp only [List.cons_append, List.nil_append, List.take_succ_cons, List.take_zero, sspSum,
      Nat.shiftLeft_eq, u64]
    omega
  · simp only [Ssp.setTs, sspSplit4]; rfl

example : (Ssp.setTs ⟨[1, 2, 3, 4, 5], [6]⟩ 0x0123456789ABCDEF) =
    ⟨[0xCDEF, 0x89AB, 0x4567, 0x0123, 5], [6]⟩ := by decide

theorem frame_rt (f : Frame) (ts : Nat) (hts : ts < 2 ^ 64) : (f.setTs ts).getTs = ts := by
  simp only [Frame.getTs, Frame.setTs, u32, Nat.shiftRight_eq_div_pow]
  have h1 : ts % 4294967296 < 2 ^ 32 := Nat.mod_lt _ (by decide)
  rw [Nat.or_comm, ← Nat.shiftLeft_add_eq_or_of_lt h1, Nat.shiftLeft_eq]
  omega

/-- C40, WIB2 and photon detector superchunks: the first timestamp reads back unchanged, and only the first
frame's timestamp is written. -/
theorem C40_superchunk (f : Frame) (fs : List Frame) (ts : Nat) (hts : ts < 2 ^ 64) :
    getFirst (setFirst (f :: fs) ts) = ts ∧ (setFirst (f :: fs) ts).tail = fs ∧
    ∀ g ∈ (setFirst (f :: fs) ts).head?, g.rest = f.rest := by
  refine ⟨frame_rt f ts hts, rfl, ?_⟩
  intro g hg
  simp only [setFirst, List.head?_cons, Option.mem_def, Option.some.injEq] at hg
  subst hg; rfl

example : (setFirst [⟨1, 2, [5]⟩, ⟨3, 4, [6]⟩] (2 ^ 63)).tail = [⟨3, 4, [6]⟩] :=
  (C40_superchunk _ _ _ (by decide)).2.1

/-- C40, faked timestamps: frame `i` gets the first timestamp plus `i` offsets modulo 2^64; the number of frames
and the other contents of every frame are unchanged. -/
theorem C40_fake_evenly_spaced (c : List Frame) (ts offset : Nat) (hts : ts < 2 ^ 64) :
    (fake c ts offset).length = c.length ∧
    ∀ (i : Nat) (f : Frame), c[i]? = some f →
      ∃ g : Frame, (fake c ts offset)[i]? = some g ∧ g.getTs = u64 (ts + i * offset) ∧ g.rest = f.rest := by
  induction c generalizing ts with
  | nil => simp [fake]
  | cons x xs ih =>
    have hlt : u64 (ts + offset) < 2 ^ 64 := Nat.mod_lt _ (by decide)
    obtain ⟨h1, h2⟩ := ih (u64 (ts + offset)) hlt
    refine ⟨by simp [fake, h1], ?_⟩
    intro i f hf
    cases i with
    | zero =>
      simp only [List.getElem?_cons_zero, Option.some.injEq] at hf
      subst hf
      refine ⟨x.setTs ts, rfl, ?_, rfl⟩
      rw [frame_rt _ _ hts]; simp only [u64]; omega
    | succ i =>
      obtain ⟨g, hg, ht, hr⟩ := h2 i f (by simpa using hf)
      refine ⟨g, by simpa [fake] using hg, ?_, hr⟩
      rw [ht]
      simp only [u64]
      rw [show ts + (i + 1) * offset = ts + offset + i * offset from by rw [Nat.add_mul]; omega]
      omega

example : (fake [⟨0, 0, [5]⟩, ⟨1, 1, [6]⟩, ⟨2, 2, []⟩] (2 ^ 64 - 10) 32).map Frame.getTs =
    [2 ^ 64 - 10, 22, 54] := by decide

/-- C40, software trigger primitives. -/
theorem C40_sw_tp (t : SwTp) (ts : Nat) (hts : ts < 2 ^ 64) : (t.setTs ts).start = ts := by
  simp only [SwTp.setTs, u64]; omega

example : (SwTp.setTs ⟨3⟩ 17).start = 17 := by decide

/-- C40 is false of PACMAN messages: the write accessor does nothing. -/
theorem C40_pacman_counterexample : (Pacman.setTs ⟨1⟩ 100000000).getTs ≠ 100000000 := by decide

/-- C40 (spacing) is false of SSP frames: faking timestamps does nothing. -/
theorem C40_ssp_fake_counterexample : (Ssp.fake ⟨[1, 0, 0, 0], []⟩ 100 25).getTs ≠ 100 := by decide

/-- The PACMAN order and the PACMAN timestamp agree, and the conversion to ticks does not wrap, for every
32-bit time. -/
theorem C40_pacman_order (p q : Pacman) (hp : p.unix < 2 ^ 32) (hq : q.unix < 2 ^ 32) :
    p.getTs = p.unix * 50000000 ∧ (p.lt q = true ↔ p.getTs < q.getTs) := by
  have e1 : p.getTs = p.unix * 50000000 := by simp only [Pacman.getTs, u64]; omega
  have e2 : q.getTs = q.unix * 50000000 := by simp only [Pacman.getTs, u64]; omega
  refine ⟨e1, ?_⟩
  rw [e1, e2]
  simp only [Pacman.lt, decide_eq_true_eq]
  omega

example : (Pacman.mk 3).lt (Pacman.mk 4) = true := by decide

/-- The hit count of a raw trigger primitive frame is 16 bits wide: a larger count is silently reduced, and the
reported frame size with it. -/
theorem C40_nhits_width (h : TpHeader) (n : Nat) :
    (n < 65536 → (h.setNhits n).nhits = n ∧ (h.setNhits n).frameSize = 24 + 12 * n) ∧
    (65536 ≤ n → (h.setNhits n).frameSize < 24 + 12 * n) := by
  simp only [TpHeader.setNhits, TpHeader.frameSize, u16]
  omega

example : (TpHeader.setNhits ⟨0, 0, 1, []⟩ 65537).frameSize = 36 := by decide

/-! ### C63: a payload in a fragment or recording is complete -/

theorem flatMap_frames (k : Nat) (p : List Nat) (n : Nat) (h : p.length = n * k) :
    (List.range n).flatMap (fun i => (p.drop (i * k)).take k) = p := by
  induction n generalizing p with
  | zero => simp at h; simp [h]
  | succ n ih =>
    rw [List.range_succ_eq_map, List.flatMap_cons, List.flatMap_map]
    have h' : (p.drop k).length = n * k := by rw [List.length_drop, h, Nat.succ_mul]; omega
    have hh := ih (p.drop k) h'
    have e : (fun i => ((p.drop k).drop (i * k)).take k) =
        (fun i => (p.drop ((Nat.succ i) * k)).take k) := by
      funext i; rw [List.drop_drop, Nat.succ_mul, Nat.add_comm]
    rw [e] at hh
    show List.take k (List.drop (0 * k) p) ++ _ = _
    rw [hh, Nat.zero_mul, List.drop_zero, List.take_append_drop]

/-- C63 for the WIB, WIB2, photon detector, software trigger primitive and PACMAN types: a payload inside the window
is copied completely, and the frames copied one by one at the edge of a window are together the payload. Missing: SSP,
where it is false. -/
theorem C63_complete_partial (tp : Nat) (s : Sizes)
    (hs : s = wibSizes ∨ s = wib2Sizes ∨ s = daphneSizes ∨ s = swTpSizes tp ∨ s = pacmanSizes)
    (p : List Nat) (hp : p.length = s.object) :
    wholeBytes s p = p ∧ (List.range s.frames).flatMap (frameBytes s p) = p := by
  have h : s.payload = s.object ∧ s.object = s.frames * s.frame := by
    rcases hs with rfl | rfl | rfl | rfl | rfl <;> simp [wibSizes, wib2Sizes, daphneSizes, swTpSizes, pacmanSizes]
  constructor
  · rw [wholeBytes, h.1, ← hp, List.take_length]
  · exact flatMap_frames s.frame p s.frames (by rw [hp, h.2])

example : (List.replicate 36 (7 : Nat)).length = (swTpSizes 36).object := by decide

/-- C63 is false of SSP: every payload loses as many bytes at its end as its event header has. -/
theorem C63_ssp_counterexample (hdr : Nat) (hh : 0 < hdr) (p : List Nat) (hp : p.length = (sspSizes hdr).object) :
    wholeBytes (sspSizes hdr) p ≠ p ∧ (p.drop 1012).length = hdr ∧
    wholeBytes (sspSizes hdr) p ++ p.drop 1012 = p ∧ frameBytes (sspSizes hdr) p 0 = p.take 1012 := by
  have h : wholeBytes (sspSizes hdr) p = p.take 1012 := rfl
  have hl : p.length = hdr + 1012 := hp
  refine ⟨?_, by rw [List.length_drop]; omega, by rw [h, List.take_append_drop], rfl⟩
  intro e
  have := congrArg List.length e
  rw [h, List.length_take] at this
  omega

/-! ### C64: a data request searches from the beginning of its window -/

/-- C64: for the payload types with a working write accessor the key under which the buffer is searched is the
beginning of the requested window, whatever the local search object contained before. Missing: PACMAN, where it is
false; the raw trigger primitive handler never searches. -/
theorem C64_search_key_partial (b : Nat) (hb : b < 2 ^ 64) :
    (∀ (f : Frame) (fs : List Frame), getFirst (setFirst (f :: fs) b) = b) ∧
    (∀ s : Ssp, (s.setTs b).getTs = b) ∧ (∀ t : SwTp, (t.setTs b).start = b) :=
  ⟨fun f fs => (C40_superchunk f fs b hb).1, fun s => (C40_ssp s b hb).1, fun t => C40_sw_tp t b hb⟩

example : getFirst (setFirst [⟨1, 2, []⟩, ⟨3, 4, []⟩] 77) = 77 := by decide

/-- C64 is false of PACMAN: the search starts at whatever the uninitialised search object contains. -/
theorem C64_pacman_key_counterexample (fresh : Pacman) (b b' : Nat) :
    (fresh.setTs b).getTs = (fresh.setTs b').getTs := rfl

/-- Consequence: messages of the seconds 1 to 5 are stored; of a request for the seconds 2 and 3 the answer
contains both, one or none, depending on the uninitialised object. -/
theorem C64_pacman_found_counterexample :
    let l : List Pacman := [⟨1⟩, ⟨2⟩, ⟨3⟩, ⟨4⟩, ⟨5⟩]
    pacmanFound ⟨0⟩ l 100000000 200000000 = [(⟨2⟩, 0), (⟨3⟩, 0)] ∧
    pacmanFound ⟨3⟩ l 100000000 200000000 = [(⟨3⟩, 0)] ∧
    pacmanFound ⟨4⟩ l 100000000 200000000 = [] := by decide

end Verif.Format
