import Verif.SrcFileModel
import Verif.EmuProps
import Verif.TpEmuProps
/-
C130: the data file of an emulator.
-/
namespace Verif.SrcFile
open Verif.Search (u64)

/-! ## Loading -/

/-- Specification: the file did not change while it was read. -/
def Disk.steady (d : Disk) : Prop := d.seen = d.bytes.length

/-- Specification: there is memory for the file. -/
def Disk.fits (d : Disk) : Prop := d.seen ≤ d.mem ∧ d.bytes.length ≤ d.mem

theorem toInt_id (n : Int) (h0 : -2147483648 ≤ n) (h1 : n < 2147483648) : toInt n = n := by
  unfold toInt; omega

theorem toInt_nat (n : Nat) (h : n < 2147483648) : toInt (n : Int) = n := toInt_id _ (by omega) (by omega)

theorem toInt_range (n : Int) : -2147483648 ≤ toInt n ∧ toInt n < 2147483648 := by
  unfold toInt; omega

/-- C130 (loading): a file that can be opened and does not change is loaded completely, and the number of elements is the
number of whole elements in it, as long as that is below 2^31. -/
theorem C130_loaded (limit sz : Nat) (d : Disk) (hs : 0 < sz) (hd : d.steady) (hm : d.fits)
    (hn : d.bytes.length / sz < 2147483648) :
    ∃ ws, confFile limit sz (some d) = (⟨true, (d.bytes.length / sz : Nat), d.bytes⟩, ws, true) := by
  have hp : (0 : Int) < (sz : Int) := by omega
  have hc : toInt ((d.seen : Int) / (sz : Int)) = ((d.bytes.length / sz : Nat) : Int) := by
    rw [hd, ← Int.natCast_ediv]
    exact toInt_nat _ hn
  unfold Disk.fits at hm
  simp only [confFile, Buf.read, Buf.init, Bool.false_eq_true, if_false, if_pos hp, hc, if_pos hm, List.append_nil]
  exact ⟨_, rfl⟩

/-- C130 (what is refused): exactly the files that cannot be opened or do not fit into memory, whatever the limit. -/
theorem C130_refused (limit sz : Nat) (f : Option Disk) :
    (confFile limit sz f).2.2 = false ↔ f = none ∨ ∃ d, f = some d ∧ ¬ d.fits := by
  cases f with
  | none => simp [confFile, Buf.read]
  | some d =>
    simp only [confFile, Buf.read, Buf.init, Bool.false_eq_true, if_false]
    by_cases h : d.fits
    · have h' := h
      unfold Disk.fits at h'
      rw [if_pos h']; simp [h]
    · have h' := h
      unfold Disk.fits at h'
      rw [if_neg h']; simp [h]

/-- C130 (warnings): for limits below 2^31 the limit is reported exactly for larger files, and surplus bytes exactly for
files that are not whole elements. -/
theorem C130_warnings (limit sz : Nat) (d : Disk) (hs : 0 < sz) (hl : limit < 2147483648) :
    (Warning.limit ∈ (confFile limit sz (some d)).2.1 ↔ limit < d.seen) ∧
    (Warning.extra ∈ (confFile limit sz (some d)).2.1 ↔ ¬ sz ∣ d.seen) := by
  have hp : (0 : Int) < (sz : Int) := by omega
  have hc : toInt (limit : Int) = limit := toInt_id _ (by omega) (by omega)
  have e : (confFile limit sz (some d)).2.1 =
      (if (limit : Int) < (d.seen : Int) then [Warning.limit] else []) ++
      (if 0 < (sz : Int) ∧ 0 < (d.seen : Int) % (sz : Int) then [Warning.extra] else []) := by
    simp only [confFile, Buf.read, Buf.init, Bool.false_eq_true, if_false, hc]
    split <;> rfl
  have hmod : (d.seen : Int) % (sz : Int) = ((d.seen % sz : Nat) : Int) := by rw [Int.natCast_emod]
  rw [e, hmod]
  constructor
  · by_cases h : (limit : Int) < (d.seen : Int)
    · rw [if_pos h]
      exact ⟨fun _ => by omega, fun _ => by simp⟩
    · rw [if_neg h]
      constructor
      · intro hm
        split at hm <;> simp at hm
      · intro hm
        omega
  · rw [Nat.dvd_iff_mod_eq_zero]
    by_cases h : d.seen % sz = 0
    · rw [if_neg (c := 0 < (sz : Int) ∧ _) (by omega)]
      constructor
      · intro hm
        split at hm <;> simp at hm
      · intro hm
        exact absurd h hm
    · rw [if_pos (c := 0 < (sz : Int) ∧ _) (by omega)]
      exact ⟨fun _ => h, fun _ => by simp⟩

/-- C130 (negation for the limit): every file above the limit that fits into memory is accepted and loaded completely. -/
theorem C130_limit_counterexample (limit sz : Nat) (d : Disk) (hm : d.fits) (_h : limit < d.seen) :
    (confFile limit sz (some d)).2.2 = true ∧ (confFile limit sz (some d)).1.bytes = d.bytes := by
  unfold Disk.fits at hm
  simp only [confFile, Buf.read, Buf.init, Bool.false_eq_true, if_false, if_pos hm, List.append_nil]
  exact ⟨trivial, trivial⟩

/-- Such a file: four bytes for a limit of three. -/
example : ∃ d : Disk, d.fits ∧ d.steady ∧ 3 < d.seen := ⟨⟨4, [1, 2, 3, 4], 8⟩, ⟨by decide, by decide⟩, rfl, by decide⟩

/-- C130 (negation for the limit): a configured limit from 2^31 on becomes negative, and every file, even an empty one, is
reported to exceed it. -/
theorem C130_sign_counterexample (limit sz : Nat) (d : Disk) (h1 : 2147483648 ≤ limit) (h2 : limit < 4294967296) :
    Warning.limit ∈ (confFile limit sz (some d)).2.1 := by
  have hc : toInt (limit : Int) < (d.seen : Int) := by unfold toInt; omega
  simp only [confFile, Buf.read, Buf.init, Bool.false_eq_true, if_false, if_pos hc]
  split <;> simp

/-- C130 (loading again): a buffer that has opened a file refuses every further one and keeps what it has. -/
theorem C130_again (limit chunk : Int) (f g : Option Disk) (limit' chunk' : Int) (d : Disk) (hf : f = some d) (b : Buf) :
    ((b.read limit chunk f).1.read limit' chunk' g).2.2 = false ∧
    ((b.read limit chunk f).1.read limit' chunk' g).1 = (b.read limit chunk f).1 := by
  have ho : (b.read limit chunk f).1.opened = true := by
    subst hf
    simp only [Buf.read]
    split
    · assumption
    · split <;> rfl
  generalize (b.read limit chunk f).1 = c at ho
  cases g with
  | none => exact ⟨rfl, rfl⟩
  | some e => simp [Buf.read, ho]

/-- C130 (negation for refused files): a file for which memory does not suffice is refused, yet the buffer reports its
elements, and holds none. -/
theorem C130_count_counterexample (limit sz : Nat) (d : Disk) (hs : 0 < sz) (hm : ¬ d.fits)
    (hn : d.seen / sz < 2147483648) : (confFile limit sz (some d)).2.2 = false ∧
    (confFile limit sz (some d)).1.count = (d.seen / sz : Nat) ∧ (confFile limit sz (some d)).1.bytes = [] := by
  have hp : (0 : Int) < (sz : Int) := by omega
  have hc : toInt ((d.seen : Int) / (sz : Int)) = ((d.seen / sz : Nat) : Int) := by
    rw [← Int.natCast_ediv]
    exact toInt_nat _ hn
  unfold Disk.fits at hm
  simp only [confFile, Buf.read, Buf.init, Bool.false_eq_true, if_false, if_pos hp, hc, if_neg hm]
  exact ⟨trivial, trivial, trivial⟩

/-! ## Replay by the source emulator -/

/-- Specification: `m` is an element that lies in the file. -/
def Inside (c : Emu.Cfg) (b : List Nat) : Prop := ∃ k, (k + 1) * c.sz ≤ c.source.length ∧ b = (c.source.drop (k * c.sz)).take c.sz

theorem wrapped_inside (c : Emu.Cfg) (num : Int) (o : Nat) (hz : c.sz < 4294967296)
    (hl : c.sz ≤ c.source.length) (ho : o < 4294967296) (hw : o + 1 ≠ 4294967296) :
    (wrapped c num o + 1) * c.sz ≤ c.source.length := by
  unfold wrapped
  split
  · simpa using hl
  · next h =>
    have h2 : ¬ (u64 ((o + 1) % 4294967296 * c.sz) > c.source.length) := fun x => h (Or.inr x)
    have h3 : (o + 1) % 4294967296 = o + 1 := Nat.mod_eq_of_lt (by omega)
    have h4 : (o + 1) * c.sz < 4294967296 * 4294967296 := Nat.mul_lt_mul_of_le_of_lt (by omega) hz (by omega)
    rw [h3, u64, Nat.mod_eq_of_lt (by omega)] at h2
    omega

theorem readAt_inside (c : Emu.Cfg) (k : Nat) (h : (k + 1) * c.sz ≤ c.source.length) :
    Emu.readAt c k = .ok ((c.source.drop (k * c.sz)).take c.sz) := by
  unfold Emu.readAt
  rw [Nat.add_mul, Nat.one_mul] at h
  rw [if_pos h]

/-- C130 (replay is safe): whatever number of elements is reported, also a wrong or negative one, the source emulator stays
inside a file of at least one element and of fewer than 2^32 - 1, and every payload is an element of the file. -/
theorem C130_replay_safe (c : Emu.Cfg) (num : Int) (t0 : Nat) (hs : 0 < c.sz) (hz : c.sz < 4294967296)
    (hl : c.sz ≤ c.source.length) (hn : c.source.length < 4294967294 * c.sz) (hd : c.drops ≠ []) (n : Nat) :
    ∃ s, run c num t0 n = .ok s ∧ s.out.length ≤ n ∧ ∀ x ∈ s.out, Inside c x.1 := by
  have hdl : 0 < c.drops.length := List.length_pos_iff.2 hd
  have key : ∃ s, run c num t0 n = .ok s ∧ s.out.length ≤ n ∧ (∀ x ∈ s.out, Inside c x.1) ∧ s.di < c.drops.length ∧
      s.offset * c.sz ≤ c.source.length := by
    induction n with
    | zero => exact ⟨_, rfl, by simp, by simp, hdl, by simp⟩
    | succ n ih =>
      obtain ⟨s, e, i1, i2, i3, i4⟩ := ih
      have ho : s.offset < 4294967294 := Nat.lt_of_mul_lt_mul_right (Nat.lt_of_le_of_lt i4 hn)
      have hw := wrapped_inside c num s.offset hz hl (by omega) (by omega)
      obtain ⟨b, hb⟩ : ∃ b, c.drops[s.di]? = some b := ⟨_, List.getElem?_eq_getElem i3⟩
      have hdi : (s.di + 1) % c.drops.length < c.drops.length := Nat.mod_lt _ hdl
      cases b with
      | false =>
        refine ⟨⟨wrapped c num s.offset, (s.di + 1) % c.drops.length, u64 (s.ts + c.tick * 12), s.out⟩, ?_, ?_, i2, hdi, ?_⟩
        · simp [run, e, iter, hb]
        · exact Nat.le_succ_of_le i1
        · show wrapped c num s.offset * c.sz ≤ _
          exact Nat.le_trans (Nat.mul_le_mul_right _ (Nat.le_succ _)) hw
      | true =>
        have hlt : wrapped c num s.offset + 1 < 4294967296 := by
          have := Nat.lt_of_mul_lt_mul_right (Nat.lt_of_le_of_lt hw hn)
          omega
        refine ⟨⟨(wrapped c num s.offset + 1) % 4294967296, (s.di + 1) % c.drops.length, u64 (s.ts + c.tick * 12),
          s.out ++ [((c.source.drop (wrapped c num s.offset * c.sz)).take c.sz, s.ts)]⟩, ?_, ?_, ?_, hdi, ?_⟩
        · simp [run, e, iter, hb, readAt_inside c _ hw]
        · simpa using i1
        · intro x hx
          rcases List.mem_append.1 hx with h | h
          · exact i2 x h
          · rw [List.mem_singleton] at h
            subst h
            exact ⟨_, hw, rfl⟩
        · show (wrapped c num s.offset + 1) % 4294967296 * c.sz ≤ _
          rw [Nat.mod_eq_of_lt hlt]
          exact hw
  obtain ⟨s, e, i1, i2, _⟩ := key
  exact ⟨s, e, i1, i2⟩

theorem toSize_nat (n : Nat) (h : n < 18446744073709551616) : toSize (n : Int) = n := by
  unfold toSize; omega

theorem wrapped_exact (c : Emu.Cfg) (o : Nat) (hz : c.sz < 4294967296)
    (hn : Emu.numElem c < 2147483648) (ho : o ≤ Emu.numElem c) :
    wrapped c (Emu.numElem c : Nat) o = Emu.wrapped c o := by
  have h1 : toSize ((Emu.numElem c : Nat) : Int) = Emu.numElem c := toSize_nat _ (by omega)
  have h2 : Emu.numElem c * c.sz < 2147483648 * 4294967296 := Nat.mul_lt_mul_of_le_of_lt (by omega) hz (by omega)
  have h3 : (o + 1) % 4294967296 = o + 1 := Nat.mod_eq_of_lt (by omega)
  have h4 : (o + 1) * c.sz < 2147483649 * 4294967296 := Nat.mul_lt_mul_of_le_of_lt (by omega) hz (by omega)
  unfold wrapped Emu.wrapped
  rw [h1, h3]
  have h5 : u64 (Emu.numElem c * c.sz) = Emu.numElem c * c.sz := Nat.mod_eq_of_lt (by omega)
  have h6 : u64 ((o + 1) * c.sz) = (o + 1) * c.sz := Nat.mod_eq_of_lt (by omega)
  simp only [h5, h6]

/-- C130 (replay is exact): with the number of elements that was reported for an unchanged file, the widths of the
variables do not matter: the payloads are those of C47. -/
theorem C130_replay_exact (c : Emu.Cfg) (t0 limit : Nat) (d : Disk) (hd : d.steady) (hm : d.fits) (hb : c.source = d.bytes)
    (hs : 0 < c.sz) (hz : c.sz < 4294967296) (hl : c.sz ≤ c.source.length) (hn : d.bytes.length / c.sz < 2147483648)
    (hp : c.drops ≠ []) (ht : t0 < 18446744073709551616) (n : Nat) :
    ∃ s, run c (confFile limit c.sz (some d)).1.count t0 n = .ok s ∧ s.out = Emu.expected c t0 n := by
  obtain ⟨ws, e⟩ := C130_loaded limit c.sz d hs hd hm hn
  have hk : Emu.numElem c = d.bytes.length / c.sz := by rw [Emu.numElem, hb]
  rw [e, ← hk]
  rw [← hk] at hn
  have key : ∃ s, run c (Emu.numElem c : Nat) t0 n = .ok s ∧ Emu.Inv c t0 n s := by
    induction n with
    | zero => exact ⟨_, rfl, Emu.begin_inv c t0 ht⟩
    | succ n ih =>
      obtain ⟨s, h1, inv⟩ := ih
      obtain ⟨s', h2, h3⟩ := Emu.iter_inv c t0 hs hl hp n inv
      refine ⟨s', ?_, h3⟩
      have hw := wrapped_exact c s.offset hz hn inv.off.1
      obtain ⟨w1, w2⟩ := Emu.wrapped_eq c hs hl s.offset inv.off.1
      have hlt : (Emu.wrapped c s.offset + 1) % 4294967296 = Emu.wrapped c s.offset + 1 :=
        Nat.mod_eq_of_lt (by omega)
      rw [← h2]
      simp only [run, h1, Outcome.bind_ok]
      unfold iter Emu.iter
      simp only [hw]
      cases c.drops[s.di]? with
      | none => rfl
      | some b =>
        cases b
        · rfl
        · simp only [hlt]
  obtain ⟨s, h1, inv⟩ := key
  exact ⟨s, h1, inv.out⟩

/-- C130 (negation for refused files): started all the same, an emulator reads outside, whatever the reported number. -/
theorem C130_empty_counterexample (sz tick t0 : Nat) (num : Int) (hs : 0 < sz) :
    run ⟨[], sz, tick, [true]⟩ num t0 1 = .ub .outOfBounds := by
  have hw : wrapped ⟨[], sz, tick, [true]⟩ num 0 = 0 := by unfold wrapped; split <;> rfl
  have hr : Emu.readAt ⟨[], sz, tick, [true]⟩ 0 = .ub .outOfBounds := by
    unfold Emu.readAt
    rw [if_neg (by simp; omega)]
  simp [run, iter, hw, hr]

/-! ## Replay by the trigger primitive emulator -/

theorem readSrc_ok {src : List Nat} {o n : Nat} {l : List Nat} (h : TpEmu.readSrc src o n = .ok l) :
    o + n ≤ src.length ∧ l = (src.drop o).take n := by
  unfold TpEmu.readSrc at h
  split at h
  · next hle =>
    rw [Outcome.ok.injEq] at h
    exact ⟨hle, h.symm⟩
  · exact absurd h (by simp)

theorem copyTo_ok {d s l : List Nat} {n : Nat} (h : TpEmu.copyTo d s n = .ok l) :
    n ≤ s.length ∧ n ≤ d.length ∧ l = s.take n ++ d.drop n := by
  unfold TpEmu.copyTo at h
  split at h
  · next hle =>
    rw [Outcome.ok.injEq] at h
    exact ⟨hle.1, hle.2, h.symm⟩
  · exact absurd h (by simp)

theorem setNhits_hits {b l : List Nat} {n : Nat} (h : TpEmu.setNhits b n = .ok l) :
    TpEmu.hitsOf l = n % 65536 ∧ 9 < l.length := by
  unfold TpEmu.setNhits at h
  split at h
  · next hle =>
    rw [Outcome.ok.injEq] at h
    subst h
    refine ⟨?_, by simpa using hle⟩
    unfold TpEmu.hitsOf
    rw [List.getD_eq_getElem?_getD, List.getElem?_set_self (by simp; omega)]
    simp only [Option.getD_some]
    omega
  · exact absurd h (by simp)

theorem unpack1_off {src : List Nat} {g : Nat → Nat} {o : Nat} {blk : List Nat} (h : TpEmu.unpack1 src g o = .ok blk) :
    o + TpEmu.frameWords blk ≤ src.length := by
  unfold TpEmu.unpack1 at h
  cases h1 : TpEmu.countSub src o 1 (src.length + 1) with
  | ub u => simp [h1] at h
  | throws e => simp [h1] at h
  | ok n =>
    simp only [h1, Outcome.bind_ok] at h
    split at h
    · exact absurd h (by simp)
    · next hn =>
      cases h2 : TpEmu.readSrc src o 3 with
      | ub u => simp [h2] at h
      | throws e => simp [h2] at h
      | ok head =>
        cases h3 : TpEmu.readSrc src (o + (n - 1) * 3) 3 with
        | ub u => simp [h2, h3] at h
        | throws e => simp [h2, h3] at h
        | ok ped =>
          cases h4 : TpEmu.readSrc src (o + 3) ((n - 2) * 3) with
          | ub u => simp [h2, h3, h4] at h
          | throws e => simp [h2, h3, h4] at h
          | ok hits =>
            cases h5 : TpEmu.setNhits ((List.range (6 + 3 * (n - 2))).map g) (n - 2) with
            | ub u => simp [h2, h3, h4, h5] at h
            | throws e => simp [h2, h3, h4, h5] at h
            | ok b =>
              cases h6 : TpEmu.copyTo b (head ++ ped ++ hits) (TpEmu.frameWords b) with
              | ub u => rw [h2, h3, h4] at h; simp only [Outcome.bind_ok] at h; rw [h5] at h; simp only [Outcome.bind_ok] at h; rw [h6] at h; exact absurd h (by simp)
              | throws e => rw [h2, h3, h4] at h; simp only [Outcome.bind_ok] at h; rw [h5] at h; simp only [Outcome.bind_ok] at h; rw [h6] at h; exact absurd h (by simp)
              | ok b' =>
                rw [h2, h3, h4] at h; simp only [Outcome.bind_ok] at h; rw [h5] at h; simp only [Outcome.bind_ok] at h; rw [h6] at h
                simp only [Outcome.bind_ok] at h
                have a := (setNhits_hits h).1
                have r := (readSrc_ok h3).1
                have m : (n - 2) % 65536 ≤ n - 2 := Nat.mod_le _ _
                unfold TpEmu.frameWords
                omega

theorem unpack2_off {src : List Nat} {g : Nat → Nat} {o n : Nat} {blk : List Nat} (hn : n < 65536)
    (hh : n = (src.getD (o + 4) 0) / 65536) (h : TpEmu.unpack2 src g n o = .ok blk) :
    o + TpEmu.frameWords blk ≤ src.length := by
  unfold TpEmu.unpack2 at h
  cases h1 : TpEmu.setNhits ((List.range (6 + 3 * n)).map g) n with
  | ub u => simp only [h1] at h; exact absurd h (by simp)
  | throws e => simp only [h1] at h; exact absurd h (by simp)
  | ok b =>
    simp only [h1, Outcome.bind_ok] at h
    cases h2 : TpEmu.readSrc src o (TpEmu.frameWords b) with
    | ub u => simp only [h2] at h; exact absurd h (by simp)
    | throws e => simp only [h2] at h; exact absurd h (by simp)
    | ok d =>
      simp only [h2, Outcome.bind_ok] at h
      obtain ⟨a1, a2⟩ := setNhits_hits h1
      obtain ⟨b1, b2⟩ := readSrc_ok h2
      obtain ⟨c1, c2, c3⟩ := copyTo_ok h
      have hf : TpEmu.frameWords b = 6 + 3 * n := by
        unfold TpEmu.frameWords
        rw [a1, Nat.mod_eq_of_lt hn]
      have hb : TpEmu.hitsOf blk = n := by
        unfold TpEmu.hitsOf
        rw [c3, List.getD_eq_getElem?_getD, List.getElem?_append_left (by simp; omega), List.getElem?_take_of_lt (by omega), b2,
          List.getElem?_take_of_lt (by omega), List.getElem?_drop, ← List.getD_eq_getElem?_getD, ← hh]
      unfold TpEmu.frameWords at b1 hf ⊢
      omega

theorem iter_off {src : List Nat} {g : Nat → Nat} {s s' : TpEmu.St} (hw : ∀ w ∈ src, w < 4294967296)
    (h : TpEmu.iter src g s = .ok s') : s'.off ≤ src.length := by
  unfold TpEmu.iter at h
  simp only at h
  generalize (if s.off = TpEmu.numElem src * 3 then 0 else s.off) = o at h
  cases h1 : TpEmu.readSrc src o 6 with
  | ub u => simp [h1] at h
  | throws e => simp [h1] at h
  | ok hdr =>
    cases h2 : TpEmu.unpack src g hdr o with
    | ub u => simp [h1, h2] at h
    | throws e => simp [h1, h2] at h
    | ok blk =>
      simp only [h1, h2, Outcome.bind_ok, Outcome.ok.injEq] at h
      subst h
      show o + TpEmu.frameWords blk ≤ src.length
      obtain ⟨r1, r2⟩ := readSrc_ok h1
      have hh : TpEmu.hitsOf hdr = src.getD (o + 4) 0 / 65536 := by
        unfold TpEmu.hitsOf
        rw [r2, List.getD_eq_getElem?_getD, List.getElem?_take_of_lt (by omega), List.getElem?_drop, ← List.getD_eq_getElem?_getD]
      unfold TpEmu.unpack at h2
      split at h2
      · have hlt : src.getD (o + 4) 0 < 4294967296 := by
          rw [List.getD_eq_getElem?_getD, List.getElem?_eq_getElem (by omega)]
          exact hw _ (List.getElem_mem _)
        exact unpack2_off (by rw [hh]; omega) hh h2
      · exact unpack1_off h2

theorem run_off {src : List Nat} {g : Nat → Nat} (hw : ∀ w ∈ src, w < 4294967296) (n : Nat) {s : TpEmu.St}
    (h : TpEmu.run src g n = .ok s) : s.off ≤ src.length := by
  cases n with
  | zero =>
    simp only [TpEmu.run, Outcome.ok.injEq] at h
    subst h
    exact Nat.zero_le _
  | succ n =>
    cases hr : TpEmu.run src g n with
    | ub u => simp [TpEmu.run, hr] at h
    | throws e => simp [TpEmu.run, hr] at h
    | ok t =>
      simp only [TpEmu.run, hr, Outcome.bind_ok] at h
      exact iter_off hw h

/-- What the emulator is told about a file of words that did not change. -/
def told (src : List Nat) : Int := toInt ((4 * src.length / 12 : Nat) : Int)

theorem told_eq (src : List Nat) (hn : 4 * src.length < 2147483648) : told src = (TpEmu.numElem src : Nat) := by
  have e : 4 * src.length / 12 = TpEmu.numElem src := by unfold TpEmu.numElem; omega
  unfold told
  rw [e]
  exact toInt_nat _ (by unfold TpEmu.numElem; omega)

theorem tpIter_exact {src : List Nat} {g : Nat → Nat} (hn : 4 * src.length < 2147483648)
    (hw : ∀ w ∈ src, w < 4294967296) (t : TpEmu.St) (out : List (List Nat)) {s : TpEmu.St}
    (ho : out = t.out.map Prod.fst) (h : TpEmu.iter src g t = .ok s) :
    tpIter src (TpEmu.numElem src : Nat) g ⟨4 * (t.off : Int), out⟩ = .ok ⟨4 * (s.off : Int), s.out.map Prod.fst⟩ := by
  have hs := iter_off hw h
  have hk : TpEmu.numElem src * 3 ≤ src.length := by unfold TpEmu.numElem; omega
  have hi : inInt (((TpEmu.numElem src : Nat) : Int) * 12) = true := by
    simp only [inInt, decide_eq_true_eq]; omega
  have hoff : (if (4 * (t.off : Int)) = (TpEmu.numElem src : Nat) * 12 then (0 : Int) else 4 * (t.off : Int)) =
      4 * ((if t.off = TpEmu.numElem src * 3 then 0 else t.off : Nat) : Int) := by
    by_cases hq : t.off = TpEmu.numElem src * 3
    · rw [if_pos hq, if_pos (by omega)]; rfl
    · rw [if_neg hq, if_neg (by omega)]
  unfold tpIter
  rw [if_pos hi]
  simp only [hoff]
  unfold TpEmu.iter at h
  simp only at h
  generalize (if t.off = TpEmu.numElem src * 3 then 0 else t.off) = o at h ⊢
  have hno : ¬ (4 * (o : Int) < 0 ∨ 4 * (o : Int) % 4 ≠ 0) := by omega
  have hw' : (4 * (o : Int) / 4).toNat = o := by omega
  rw [if_neg hno]
  simp only [hw']
  cases h1 : TpEmu.readSrc src o 6 with
  | ub u => simp [h1] at h
  | throws e => simp [h1] at h
  | ok hdr =>
    simp only [h1, Outcome.bind_ok] at h ⊢
    cases h2 : TpEmu.unpack src g hdr o with
    | ub u => simp [h2] at h
    | throws e => simp [h2] at h
    | ok blk =>
      simp only [h2, Outcome.bind_ok, Outcome.ok.injEq] at h ⊢
      subst h
      have e : toInt (4 * (o : Int) + 4 * (TpEmu.frameWords blk : Int)) = 4 * ((o + TpEmu.frameWords blk : Nat) : Int) := by
        simp only at hs
        rw [toInt_id] <;> omega
      rw [e, ho]
      simp

theorem tpRun_zero (src : List Nat) (num : Int) (g : Nat → Nat) : tpRun src num g 0 = .ok ⟨0, []⟩ := rfl

theorem tpRun_succ (src : List Nat) (num : Int) (g : Nat → Nat) (n : Nat) {s : TpSt} (h : tpRun src num g n = .ok s) :
    tpRun src num g (n + 1) = tpIter src num g s := by
  simp only [tpRun, h, Outcome.bind_ok]

theorem tpIter_overflow (src : List Nat) (num : Int) (g : Nat → Nat) (s : TpSt) (h : inInt (num * 12) = false) :
    tpIter src num g s = .ub .overflow := by
  unfold tpIter
  simp only [h, Bool.false_eq_true, if_false]

/-- C130 (trigger primitives): for an unchanged file of 32-bit words shorter than 2^31 bytes the widths of the variables do
not matter: as long as module TpEmu (C57) says that a round is defined, it does the same. -/
theorem C130_tp_exact (src : List Nat) (g : Nat → Nat) (hn : 4 * src.length < 2147483648)
    (hw : ∀ w ∈ src, w < 4294967296) (n : Nat) (s : TpEmu.St) (h : TpEmu.run src g n = .ok s) :
    tpRun src (told src) g n = .ok ⟨4 * (s.off : Int), s.out.map Prod.fst⟩ := by
  rw [told_eq src hn]
  induction n generalizing s with
  | zero =>
    simp only [TpEmu.run, Outcome.ok.injEq] at h
    subst h
    rw [tpRun_zero]
    simp
  | succ n ih =>
    cases hr : TpEmu.run src g n with
    | ub u => simp [TpEmu.run, hr] at h
    | throws e => simp [TpEmu.run, hr] at h
    | ok t =>
      have i := ih t hr
      simp only [TpEmu.run, hr, Outcome.bind_ok] at h
      rw [tpRun_succ _ _ _ _ i]
      exact tpIter_exact hn hw t _ rfl h

theorem told_large (src : List Nat) (h1 : 2147483660 ≤ 4 * src.length) (h2 : 4 * src.length < 25769803776) :
    inInt (told src * 12) = false := by
  unfold told
  generalize hq : 4 * src.length / 12 = q
  have a : 178956971 ≤ q := by omega
  have b : q < 2147483648 := by omega
  clear hq h1 h2
  rw [toInt_nat q b]
  rw [inInt, decide_eq_false_iff_not]
  intro hc
  have := hc.2
  omega

/-- C130 (trigger primitives, negation for large files): for a file of 2^31 + 12 bytes or more (below 12 · 2^31,
from where on the reported number is wrong) the first round of the emulator overflows. -/
theorem C130_tp_size_counterexample (src : List Nat) (g : Nat → Nat) (h1 : 2147483660 ≤ 4 * src.length)
    (h2 : 4 * src.length < 25769803776) : tpRun src (told src) g 1 = .ub .overflow := by
  rw [tpRun_succ _ _ _ 0 (tpRun_zero _ _ _)]
  exact tpIter_overflow _ _ _ _ (told_large src h1 h2)

/-- A frame of three hits. -/
def frame3 : List Nat := [0, 0, 0, 0, 3 * 65536, 48879, 1, 2, 3, 4, 5, 6, 7, 8, 9]

/-- Non-vacuity of `C130_tp_exact`: three rounds over two frames. -/
example : ∃ s, tpRun (frame3 ++ frame3) (told (frame3 ++ frame3)) (fun _ => 0) 3 = .ok s ∧ s.out = [frame3, frame3, frame3] ∧
    (∀ w ∈ frame3, w < 4294967296) := ⟨_, rfl, rfl, by decide⟩

/-- C130 (trigger primitives, negation for changing files): a file that lost its last frame between the two passes is
read outside after one pass over the contents. -/
theorem C130_tp_shrunk_counterexample :
    tpRun frame3 (toInt ((8 * frame3.length / 12 : Nat) : Int)) (fun _ => 0) 2 = .ub .outOfBounds := by decide

/-- C130 (trigger primitives, negation for refused files): no contents, whatever the reported number within the range. -/
theorem C130_tp_empty_counterexample (num : Int) (g : Nat → Nat) (h : inInt (num * 12) = true) :
    tpRun [] num g 1 = .ub .outOfBounds := by
  simp only [tpRun, Outcome.bind_ok]
  unfold tpIter
  rw [if_pos h]
  have e : (if (0 : Int) = num * 12 then (0 : Int) else 0) = 0 := by split <;> rfl
  simp only [e]
  rfl

/-- Non-vacuity of the theorems on the source emulator: two elements of two bytes, the file with one byte too many. -/
example : ∃ s, run ⟨[1, 2, 3, 4, 5], 2, 25, [true, true, false]⟩
      (confFile 4 2 (some ⟨5, [1, 2, 3, 4, 5], 100⟩)).1.count 1000 4 = .ok s ∧
    s.out = [([1, 2], 1000), ([3, 4], 1300), ([1, 2], 1900)] ∧
    (confFile 4 2 (some ⟨5, [1, 2, 3, 4, 5], 100⟩)).2 = ([.limit, .extra], true) := ⟨_, rfl, rfl, rfl⟩

end Verif.SrcFile
