import Verif.ReplayModel
import Verif.RecSessProps
import Verif.EmuLinkProps
/- Property C120: a recording can be replayed. -/
namespace Verif.Replay
open Verif.DataReq (PayloadType)
open Verif.Search (u64)

variable {P : Type}

/-- Specification: the payloads in the file, in order. -/
def recorded (s : RecSess.St P) : List P := s.recs.flatMap (·.2)

/-- Specification: every payload comes one step after the one before. -/
def GapFree (ts : P → Nat) (step : Nat) (l : List P) : Prop :=
  ∀ (i : Nat) (a b : P), l[i]? = some a → l[i + 1]? = some b → ts b = ts a + step

/-- Specification: the payload bytes have a common size and carry the timestamp. -/
structure Coded (ts : P → Nat) (bytes : P → List Nat) (sz : Nat) (stamp : List Nat → Nat) (l : List P) : Prop where
  pos : 0 < sz
  size : ∀ p ∈ l, (bytes p).length = sz
  stamp : ∀ p ∈ l, stamp (bytes p) = ts p

/-- Element `i` of a file of equally long payloads. -/
theorem chunk (bytes : P → List Nat) (sz : Nat) (l : List P) (hs : ∀ p ∈ l, (bytes p).length = sz) (i : Nat) (p : P)
    (h : l[i]? = some p) : ((l.flatMap bytes).drop (i * sz)).take sz = bytes p := by
  induction l generalizing i with
  | nil => simp at h
  | cons a l ih =>
    have ha : (bytes a).length = sz := hs a (by simp)
    cases i with
    | zero =>
      simp only [List.getElem?_cons_zero, Option.some.injEq] at h
      subst h
      rw [Nat.zero_mul, List.drop_zero, List.flatMap_cons, ← ha, List.take_left]
    | succ i =>
      rw [List.getElem?_cons_succ] at h
      have e : (i + 1) * sz = (bytes a).length + i * sz := by rw [ha, Nat.add_mul, Nat.one_mul, Nat.add_comm]
      rw [List.flatMap_cons, e, ← List.drop_drop, List.drop_left]
      exact ih (fun p hp => hs p (by simp [hp])) i h

theorem chunks_length (bytes : P → List Nat) (sz : Nat) (l : List P) (hs : ∀ p ∈ l, (bytes p).length = sz) :
    (l.flatMap bytes).length = l.length * sz := by
  induction l with
  | nil => simp
  | cons a l ih =>
    rw [List.flatMap_cons, List.length_append, hs a (by simp), ih fun p hp => hs p (by simp [hp]), List.length_cons,
      Nat.add_mul, Nat.one_mul, Nat.add_comm]

/-- An infix of a gap-free list is gap-free. -/
theorem gapFree_infix {ts : P → Nat} {step : Nat} {l m : List P} (h : GapFree ts step m) (hi : l <:+: m) :
    GapFree ts step l := by
  obtain ⟨a, b, rfl⟩ := hi
  intro i x y hx hy
  have lift : ∀ (j : Nat) (z : P), l[j]? = some z → (a ++ l ++ b)[a.length + j]? = some z := by
    intro j z hz
    have hj : j < l.length := by
      rcases Nat.lt_or_ge j l.length with h | h
      · exact h
      · rw [List.getElem?_eq_none h] at hz; simp at hz
    rw [List.append_assoc, List.getElem?_append_right (by omega), Nat.add_sub_cancel_left,
      List.getElem?_append_left hj, hz]
  exact h (a.length + i) x y (lift i x hx) (by rw [Nat.add_assoc]; exact lift (i + 1) y hy)

theorem gapFree_ts {ts : P → Nat} {step : Nat} {l : List P} (h : GapFree ts step l) {a : P} (h0 : l[0]? = some a)
    (i : Nat) (p : P) (hp : l[i]? = some p) : ts p = ts a + i * step := by
  induction i generalizing p with
  | zero => rw [h0] at hp; cases hp; simp
  | succ i ih =>
    have hlt : i + 1 < l.length := by
      rcases Nat.lt_or_ge (i + 1) l.length with h | h
      · exact h
      · rw [List.getElem?_eq_none h] at hp; simp at hp
    obtain ⟨q, hq⟩ : ∃ q, l[i]? = some q := ⟨l[i]'(by omega), List.getElem?_eq_getElem (by omega)⟩
    rw [h i q p hq hp, ih q hq, Nat.add_mul, Nat.one_mul, Nat.add_assoc]

variable {T : PayloadType P} {limit : Nat} {toPop : Nat → Nat} {fc : File.Cfg} {bytes : P → List Nat} {n : Nat}

theorem file_eq (hsp : ∀ p, 0 < Record.span T p) (hn : 2 ≤ n) (hn2 : n ≤ Ring.endIdx) {s : RecSess.St P}
    (h : RecSess.Reach T limit toPop fc bytes n s) (hth : s.th = .ready) (ha : RecSess.Fit fc bytes s.recs) :
    s.w.file = (recorded s).flatMap bytes := by
  rw [(RecSess.C97_file_partial T hsp limit toPop fc bytes n hn hn2 s h hth ha).1]
  unfold recorded
  rw [List.flatMap_assoc]

/-- Elements of the replayed file. -/
theorem element_eq {l : List P} {sz tick : Nat} (hpos : 0 < sz) (hs : ∀ p ∈ l, (bytes p).length = sz) :
    Emu.numElem (emulator (l.flatMap bytes) sz tick) = l.length ∧
    ∀ (i : Nat) (p : P), l[i]? = some p → Emu.element (emulator (l.flatMap bytes) sz tick) i = bytes p := by
  constructor
  · show (l.flatMap bytes).length / sz = _
    rw [chunks_length bytes sz l hs, Nat.mul_div_cancel _ hpos]
  · intro i p hp
    exact chunk bytes sz l hs i p hp

/-- **C120 (payloads, partial)** Replaying the recording file of a link, after any series of record commands and runs:
the emulator emits the recorded payloads byte for byte in the order of the file, cyclically, one step after the other from its
first timestamp. With O_DIRECT if the recordings got through the
writer's buffer, which is needed (`C97_direct_exact`). Missing: compressed recordings (C122). -/
theorem C120_payloads_partial (hsp : ∀ p, 0 < Record.span T p) (hn : 2 ≤ n) (hn2 : n ≤ Ring.endIdx)
    (s : RecSess.St P) (h : RecSess.Reach T limit toPop fc bytes n s) (hth : s.th = .ready)
    (ha : RecSess.Fit fc bytes s.recs) (sz tick : Nat) (stamp : List Nat → Nat)
    (hc : Coded T.ts bytes sz stamp (recorded s)) (hne : recorded s ≠ []) (t0 : Nat) (ht : t0 < 18446744073709551616)
    (k : Nat) :
    ∃ e, Emu.run (emulator s.w.file sz tick) t0 k = .ok e ∧ e.out.length = k ∧
      ∀ j, j < k → ∃ p, (recorded s)[j % (recorded s).length]? = some p ∧
        e.out[j]? = some (bytes p, (t0 + j * (tick * 12)) % 18446744073709551616) := by
  rw [file_eq hsp hn hn2 h hth ha]
  obtain ⟨hnum, hel⟩ := element_eq (tick := tick) hc.pos hc.size
  have hlen : 0 < (recorded s).length := List.length_pos_iff.mpr hne
  have hfile := chunks_length bytes sz (recorded s) hc.size
  have hge : sz ≤ ((recorded s).flatMap bytes).length := by
    rw [hfile]; exact Nat.le_mul_of_pos_left sz hlen
  obtain ⟨e, he, hl, ho⟩ := Emu.C47_no_dropout (emulator ((recorded s).flatMap bytes) sz tick) t0 hc.pos hge rfl ht k
  refine ⟨e, he, hl, fun j hj => ?_⟩
  have hm := Nat.mod_lt j hlen
  refine ⟨(recorded s)[j % (recorded s).length], List.getElem?_eq_getElem hm, ?_⟩
  rw [ho j hj, hnum, hel _ _ (List.getElem?_eq_getElem hm)]
  rfl

/-- The number of selected numbers before the `j`-th selected one is `j`. -/
theorem count_before (q : Nat → Bool) (k j i : Nat) (h : ((List.range k).filter q)[j]? = some i) :
    ((List.range i).filter q).length = j := by
  induction k with
  | zero => simp at h
  | succ k ih =>
    rw [List.range_succ, List.filter_append] at h
    rcases Nat.lt_or_ge j ((List.range k).filter q).length with hj | hj
    · rw [List.getElem?_append_left hj] at h
      exact ih h
    · rw [List.getElem?_append_right hj] at h
      cases hq : q k with
      | false => simp [hq] at h
      | true =>
        simp only [List.filter_cons, hq, if_true, List.filter_nil] at h
        obtain ⟨h1, h2⟩ := List.getElem?_eq_some_iff.1 h
        simp only [List.length_singleton] at h1
        have h3 : j = ((List.range k).filter q).length := by omega
        have h4 : i = k := by rw [← h2]; simp
        rw [h3, h4]

/-- **C120 (payloads with dropouts, partial)** The same for an emulator that leaves out some iterations according to a
dropout pattern: the payloads of the file still come byte for byte in their order, none is skipped, and each has the timestamp
of the iteration that emits it. -/
theorem C120_dropouts_partial (hsp : ∀ p, 0 < Record.span T p) (hn : 2 ≤ n) (hn2 : n ≤ Ring.endIdx)
    (s : RecSess.St P) (h : RecSess.Reach T limit toPop fc bytes n s) (hth : s.th = .ready)
    (ha : RecSess.Fit fc bytes s.recs) (sz tick : Nat) (stamp : List Nat → Nat)
    (hc : Coded T.ts bytes sz stamp (recorded s)) (hne : recorded s ≠ []) (t0 : Nat) (ht : t0 < 18446744073709551616)
    (d : List Bool) (hd : d ≠ []) (k : Nat) :
    ∃ e, Emu.run ⟨s.w.file, sz, tick, d⟩ t0 k = .ok e ∧
      e.out.length = ((List.range k).filter fun i => d.getD (i % d.length) false).length ∧
      ∀ (j i : Nat), ((List.range k).filter fun i => d.getD (i % d.length) false)[j]? = some i →
        ∃ p, (recorded s)[j % (recorded s).length]? = some p ∧
          e.out[j]? = some (bytes p, (t0 + i * (tick * 12)) % 18446744073709551616) := by
  rw [file_eq hsp hn hn2 h hth ha]
  obtain ⟨hnum, hel⟩ := element_eq (tick := tick) hc.pos hc.size
  have hlen : 0 < (recorded s).length := List.length_pos_iff.mpr hne
  have hfile := chunks_length bytes sz (recorded s) hc.size
  have hge : sz ≤ ((recorded s).flatMap bytes).length := by
    rw [hfile]; exact Nat.le_mul_of_pos_left sz hlen
  obtain ⟨e, he, ho⟩ :=
    Emu.C47_cyclic_replay_partial ⟨(recorded s).flatMap bytes, sz, tick, d⟩ t0 hc.pos hge hd ht k
  refine ⟨e, he, by rw [ho, Emu.expected, List.length_map]; rfl, ?_⟩
  intro j i hji
  have hm := Nat.mod_lt j hlen
  refine ⟨(recorded s)[j % (recorded s).length], List.getElem?_eq_getElem hm, ?_⟩
  have hcr : Emu.created ⟨(recorded s).flatMap bytes, sz, tick, d⟩ i = j := count_before _ k j i hji
  have hnum' : Emu.numElem ⟨(recorded s).flatMap bytes, sz, tick, d⟩ = (recorded s).length := hnum
  have hel' : Emu.element ⟨(recorded s).flatMap bytes, sz, tick, d⟩ (j % (recorded s).length) =
      bytes (recorded s)[j % (recorded s).length] := hel _ _ (List.getElem?_eq_getElem hm)
  rw [ho, Emu.expected, List.getElem?_map]
  show Option.map _ (((List.range k).filter fun i => d.getD (i % d.length) false)[j]?) = _
  rw [hji]
  simp only [Option.map_some, hcr, hnum', hel']
  rfl

/-- **C120 (times, partial)** If the file holds one recording, made in a run without gaps, and the emulator is not given
a first timestamp, the first pass through the file gives every recorded payload with its own timestamp.
Missing: recordings with gaps, several recordings in a file, a configured first timestamp, where this is false. -/
theorem C120_times_partial (hsp : ∀ p, 0 < Record.span T p) (hn : 2 ≤ n) (hn2 : n ≤ Ring.endIdx)
    (s : RecSess.St P) (h : RecSess.Reach T limit toPop fc bytes n s) (hth : s.th = .ready)
    (ha : RecSess.Fit fc bytes s.recs) (sz tick : Nat) (stamp : List Nat → Nat)
    (r : Nat) (l : List P) (hr : s.recs = [(r, l)]) (hne : l ≠ []) (hc : Coded T.ts bytes sz stamp l)
    (hg : GapFree T.ts (tick * 12) (s.hist r)) (h64 : ∀ p ∈ l, T.ts p < 18446744073709551616) :
    ∃ e, Emu.run (emulator s.w.file sz tick) (firstTs none stamp s.w.file sz) l.length = .ok e ∧
      e.out = l.map fun p => (bytes p, T.ts p) := by
  have hrec : recorded s = l := by simp [recorded, hr]
  have hin : l <:+: s.hist r :=
    ((RecSess.C97_file_partial T hsp limit toPop fc bytes n hn hn2 s h hth ha).2.1 (r, l) (by simp [hr])).2.1
  have hgl := gapFree_infix hg hin
  obtain ⟨a, ha0⟩ : ∃ a, l[0]? = some a := by
    cases l with
    | nil => exact absurd rfl hne
    | cons a l => exact ⟨a, rfl⟩
  have hmem : a ∈ l := List.mem_of_getElem? ha0
  have ht0 : firstTs none stamp s.w.file sz = T.ts a := by
    rw [← hc.stamp a hmem, ← chunk bytes sz l hc.size 0 a ha0, file_eq hsp hn hn2 h hth ha, hrec]
    simp [firstTs]
  obtain ⟨e, he, hl, ho⟩ := C120_payloads_partial hsp hn hn2 s h hth ha sz tick stamp (by rw [hrec]; exact hc)
    (by rw [hrec]; exact hne) (T.ts a) (h64 a hmem) l.length
  refine ⟨e, by rw [ht0]; exact he, ?_⟩
  apply List.ext_getElem?
  intro j
  rcases Nat.lt_or_ge j l.length with hj | hj
  · obtain ⟨p, hp, hout⟩ := ho j hj
    rw [hrec, Nat.mod_eq_of_lt hj] at hp
    have := gapFree_ts hgl ha0 j p hp
    have h6 := h64 p (List.mem_of_getElem? hp)
    rw [hout, List.getElem?_map, hp, ← this, Nat.mod_eq_of_lt h6]
    rfl
  · rw [List.getElem?_eq_none (by omega), List.getElem?_eq_none (by simp; omega)]

/-- **C120 (requests, partial)** A link fed by the emulator with that recording answers a request for a window within
the time of the recording exactly with the recorded frames: a fragment without error bit, of a run in which nothing was lost,
holds frame `i` of the recorded payload `p` if and only if its time is in the window, and the payloads that the link took
in this run contain the bytes recorded. Missing: as in C92 and above. -/
theorem C120_requests_partial (hsp : ∀ p, 0 < Record.span T p) (hn : 2 ≤ n) (hn2 : n ≤ Ring.endIdx)
    (s : RecSess.St P) (h : RecSess.Reach T limit toPop fc bytes n s) (hth : s.th = .ready)
    (ha : RecSess.Fit fc bytes s.recs) (sz : Nat) (stamp : List Nat → Nat)
    (r : Nat) (l : List P) (hr : s.recs = [(r, l)]) (hne : l ≠ []) (hc : Coded T.ts bytes sz stamp l)
    (lc : Session.Cfg) (cap m : Nat) (hlc : Session.Link lc m) (hnf : lc.nf = 12)
    (hg : GapFree T.ts (lc.tick * 12) (s.hist r))
    (h64 : ∀ p ∈ l, T.ts p < 18446744073709551616)
    (x : EmuLink.St)
    (hx : EmuLink.Reach ⟨emulator s.w.file sz lc.tick, firstTs none stamp s.w.file sz, lc, cap⟩ m x)
    (e : Session.Sent) (he : e ∈ x.link.sent)
    (hok : e.frag.header.dataNotFound = false)
    (hlost : x.lost e.run = 0) (hst : Session.AllStored x.link.log e.run)
    (hw : firstTs none stamp s.w.file sz + x.iters e.run * (lc.tick * 12) < 18446744073709551616)
    (hw2 : e.req.dr.wEnd + lc.tick * 12 < 18446744073709551616)
    (hend : ∀ p ∈ l.getLast?, e.req.dr.wEnd ≤ T.ts p + lc.tick * 12) :
    (∀ p ∈ l, ∀ i, i < 12 → e.req.dr.wBegin ≤ T.ts p + i * lc.tick → T.ts p + i * lc.tick < e.req.dr.wEnd →
      (T.ts p, i) ∈ e.frag.frames) ∧
    (∀ f ∈ e.frag.frames, ∃ p ∈ l, f.1 = T.ts p ∧ f.2 < 12 ∧ e.req.dr.wBegin ≤ T.ts p + f.2 * lc.tick ∧
      T.ts p + f.2 * lc.tick < e.req.dr.wEnd ∧ (bytes p, T.ts p) ∈ EmuLink.takenIn x e.run) ∧
    e.frag.frames.Pairwise (fun f g => f.1 + f.2 * lc.tick < g.1 + g.2 * lc.tick) := by
  have hrec : recorded s = l := by simp [recorded, hr]
  have hfile : s.w.file = l.flatMap bytes := by rw [file_eq hsp hn hn2 h hth ha, hrec]
  have hin : l <:+: s.hist r :=
    ((RecSess.C97_file_partial T hsp limit toPop fc bytes n hn hn2 s h hth ha).2.1 (r, l) (by simp [hr])).2.1
  have hgl := gapFree_infix hg hin
  obtain ⟨a, ha0⟩ : ∃ a, l[0]? = some a := by
    cases l with
    | nil => exact absurd rfl hne
    | cons a l => exact ⟨a, rfl⟩
  have hmem : a ∈ l := List.mem_of_getElem? ha0
  have ht0 : firstTs none stamp s.w.file sz = T.ts a := by
    rw [← hc.stamp a hmem, ← chunk bytes sz l hc.size 0 a ha0, hfile]
    simp [firstTs]
  obtain ⟨hnum, hel⟩ := element_eq (tick := lc.tick) hc.pos hc.size
  have hlen : 0 < l.length := List.length_pos_iff.mpr hne
  have hge : sz ≤ (l.flatMap bytes).length := by
    rw [chunks_length bytes sz l hc.size]; exact Nat.le_mul_of_pos_left sz hlen
  rw [ht0, hfile] at hx
  rw [ht0] at hw
  have hmat : EmuLink.Matched ⟨emulator (l.flatMap bytes) sz lc.tick, T.ts a, lc, cap⟩ :=
    ⟨rfl, hnf, hc.pos, hge, by simp [emulator, Emu.dropsOf], h64 a hmem⟩
  have hnd : EmuLink.NoDropout ⟨emulator (l.flatMap bytes) sz lc.tick, T.ts a, lc, cap⟩ := by
    intro i; simp [Emu.creates, emulator, Emu.dropsOf, Nat.mod_one]
  obtain ⟨f1, f2, f3⟩ := EmuLink.C92_fragment_is_file_data_partial _ m hmat hlc hnd x hx e he hok hlost hst hw hw2
  have hsplit : ∀ q i : Nat, T.ts a + q * (lc.tick * 12) + i * lc.tick = T.ts a + (q * 12 + i) * lc.tick := by
    intro q i
    rw [Nat.add_mul, Nat.mul_comm lc.tick 12, Nat.mul_assoc, Nat.add_assoc]
  have lastTs : ∀ z ∈ l.getLast?, T.ts z = T.ts a + (l.length - 1) * (lc.tick * 12) := by
    intro z hz
    refine gapFree_ts hgl ha0 (l.length - 1) z ?_
    rw [← List.getLast?_eq_getElem?]
    exact hz
  refine ⟨?_, ?_, f3⟩
  · intro p hp i hi hb hl
    obtain ⟨q, hq⟩ := List.mem_iff_getElem?.mp hp
    have hts := gapFree_ts hgl ha0 q p hq
    have := f1 (q * 12 + i) (by
        show e.req.dr.wBegin ≤ T.ts a + (q * 12 + i) * lc.tick
        rw [← hsplit, ← hts]; exact hb) (by
        show T.ts a + (q * 12 + i) * lc.tick < _
        rw [← hsplit, ← hts]; exact hl)
    have d1 : (q * 12 + i) / 12 = q := by omega
    have d2 : (q * 12 + i) % 12 = i := by omega
    rw [d1, d2] at this
    rw [hts]
    exact this
  · intro f hf
    obtain ⟨j, hfj, hb, hl, htk⟩ := f2 f hf
    have hb' : e.req.dr.wBegin ≤ T.ts a + j * lc.tick := hb
    have hl' : T.ts a + j * lc.tick < e.req.dr.wEnd := hl
    -- the sample lies in the first pass
    have hj : j / 12 < l.length := by
      obtain ⟨z, hz⟩ : ∃ z, l.getLast? = some z := by
        cases hh : l.getLast? with
        | none => simp at hh; exact absurd hh hne
        | some z => exact ⟨z, rfl⟩
      have e1 := hend z hz
      rw [lastTs z hz] at e1
      have e2 : (l.length - 1) * (lc.tick * 12) + lc.tick * 12 = l.length * (12 * lc.tick) := by
        rw [Nat.mul_comm lc.tick 12]
        have : l.length = (l.length - 1) + 1 := by omega
        conv_rhs => rw [this, Nat.add_mul, Nat.one_mul]
      have e3 : j * lc.tick < l.length * (12 * lc.tick) := by omega
      rw [← Nat.mul_assoc] at e3
      have e4 : j < l.length * 12 := Nat.lt_of_mul_lt_mul_right e3
      omega
    refine ⟨l[j / 12], List.getElem_mem hj, ?_⟩
    have hq : l[j / 12]? = some l[j / 12] := List.getElem?_eq_getElem hj
    have hts := gapFree_ts hgl ha0 (j / 12) _ hq
    have hf1 : f.1 = T.ts a + j / 12 * (lc.tick * 12) := by rw [hfj]; rfl
    have hf2 : f.2 = j % 12 := by rw [hfj]
    have hsum : T.ts l[j / 12] + j % 12 * lc.tick = T.ts a + j * lc.tick := by
      rw [hts, hsplit]
      congr 2
      omega
    refine ⟨by rw [hf1, hts], by rw [hf2]; omega, by rw [hf2, hsum]; exact hb', by rw [hf2, hsum]; exact hl', ?_⟩
    have : (Emu.element (emulator (l.flatMap bytes) sz lc.tick) (j / 12 % l.length), f.1) ∈ EmuLink.takenIn x e.run := by
      rw [← hnum]; exact htk
    rw [Nat.mod_eq_of_lt hj, hel _ _ hq, hf1, ← hts] at this
    exact this

/-! ### Concrete recordings (payloads of one number each, which is also the timestamp) -/

/-- The reader of the timestamp for the concrete cases. -/
def stamp1 (b : List Nat) : Nat := b.headD 0

theorem coded1 (l : List Nat) : Coded Record.demoT.ts RecSess.oneByte 1 stamp1 l :=
  ⟨by decide, fun _ _ => rfl, fun _ _ => rfl⟩

/-- A recording of two payloads in a run without gaps, WIB timing. -/
theorem twoRecorded : ∃ s, RecSess.Reach Record.demoT 2 (fun n => n * 4 / 5) ⟨4, false, 4, false⟩ RecSess.oneByte 4 s ∧
    RecSess.view s = ⟨[(0, [1000, 1300])], [1000, 1300], [.started], .ready, [1000, 1300], []⟩ :=
  RecSess.moves_view (by decide) (by decide)
    ([.arrive 1000, .arrive 1300, .command] ++ RecSess.recMoves 7) _ (by decide +kernel)

theorem gapFree_two : GapFree Record.demoT.ts 300 [1000, 1300] := by
  intro i a b h1 h2
  match i with
  | 0 => simp at h1 h2; subst h1 h2; rfl
  | i + 1 => simp at h2

/-- Non-vacuity for C120_dropouts_partial: every third iteration left out. -/
example : ∃ s, RecSess.Reach Record.demoT 2 (fun n => n * 4 / 5) ⟨4, false, 4, false⟩ RecSess.oneByte 4 s ∧
    recorded s = [1000, 1300] ∧ ((List.range 5).filter fun i => [true, true, false].getD (i % 3) false) = [0, 1, 3, 4] ∧
    ∃ e, Emu.run ⟨s.w.file, 1, 25, [true, true, false]⟩ 1000 5 = .ok e ∧
      e.out = [([1000], 1000), ([1300], 1300), ([1000], 1900), ([1300], 2200)] := by
  obtain ⟨s, h, v⟩ := twoRecorded
  simp only [RecSess.view, RecSess.View.mk.injEq] at v
  obtain ⟨hr, hf, -, -, -, -⟩ := v
  exact ⟨s, h, by simp [recorded, hr], by decide, by rw [hf]; exact ⟨_, rfl, rfl⟩⟩

/-- Non-vacuity for C120_payloads_partial and C120_times_partial. -/
example : ∃ s, RecSess.Reach Record.demoT 2 (fun n => n * 4 / 5) ⟨4, false, 4, false⟩ RecSess.oneByte 4 s ∧
    s.th = .ready ∧ RecSess.Fit ⟨4, false, 4, false⟩ RecSess.oneByte s.recs ∧ s.recs = [(0, [1000, 1300])] ∧
    recorded s ≠ [] ∧ Coded Record.demoT.ts RecSess.oneByte 1 stamp1 (recorded s) ∧
    GapFree Record.demoT.ts (25 * 12) (s.hist 0) ∧
    ∃ e, Emu.run (emulator s.w.file 1 25) (firstTs none stamp1 s.w.file 1) 3 = .ok e ∧
        e.out = [([1000], 1000), ([1300], 1300), ([1000], 1600)] := by
  obtain ⟨s, h, v⟩ := twoRecorded
  simp only [RecSess.view, RecSess.View.mk.injEq] at v
  obtain ⟨hr, hf, -, ht, hh, -⟩ := v
  refine ⟨s, h, ht, .inl rfl, hr, by simp [recorded, hr], coded1 _, by rw [hh]; exact gapFree_two, ?_⟩
  rw [hf]; exact ⟨_, rfl, rfl⟩

/-- The link fed with that recording. -/
def again : EmuLink.Cfg := ⟨emulator [1000, 1300] 1 25, 1000, Session.wib, 2⟩

/-- Non-vacuity for C120_requests_partial: the window [1250, 1350) is requested of the replayed recording. -/
example : ∃ s, RecSess.Reach Record.demoT 2 (fun n => n * 4 / 5) ⟨4, false, 4, false⟩ RecSess.oneByte 4 s ∧
    s.th = .ready ∧ s.recs = [(0, [1000, 1300])] ∧ GapFree Record.demoT.ts (Session.wib.tick * 12) (s.hist 0) ∧
    Session.Link Session.wib 4 ∧ Session.wib.nf = 12 ∧
    ∃ x, EmuLink.Reach ⟨emulator s.w.file 1 Session.wib.tick, firstTs none stamp1 s.w.file 1, Session.wib, 2⟩ 4 x ∧
      x.lost 1 = 0 ∧ Session.AllStored x.link.log 1 ∧ x.iters 1 = 3 ∧
      ∃ e ∈ x.link.sent, e.run = 1 ∧ e.req.dr = ⟨1, 1300, 1250, 1350, 5, 0⟩ ∧
        e.frag.header.dataNotFound = false ∧ e.frag.frames = [(1000, 10), (1000, 11), (1300, 0), (1300, 1)] := by
  obtain ⟨s, h, v⟩ := twoRecorded
  simp only [RecSess.view, RecSess.View.mk.injEq] at v
  obtain ⟨hr, hf, -, ht, hh, -⟩ := v
  refine ⟨s, h, ht, hr, by rw [hh]; exact gapFree_two, Session.wib_link, rfl, ?_⟩
  rw [hf]
  have r0 : EmuLink.Reach again 4 _ := .init
  have r1 := EmuLink.Reach.step _ _ r0 (.startLink _ rfl)
  have r2 := EmuLink.Reach.step _ _ r1 (.startCard _ rfl)
  have r3 := EmuLink.Reach.step _ _ r2 (EmuLink.prod rfl rfl rfl)
  have r4 := EmuLink.Reach.step _ _ r3 (EmuLink.prod rfl rfl rfl)
  have r5 := EmuLink.Reach.step _ _ r4 (EmuLink.cons rfl (by decide) rfl)
  have r6 := EmuLink.Reach.step _ _ r5 (EmuLink.cons rfl (by decide) rfl)
  have r7 := EmuLink.Reach.step _ _ r6 (EmuLink.prod rfl rfl rfl)
  have r8 := EmuLink.Reach.step _ _ r7 (EmuLink.cons rfl (by decide) rfl)
  have r9 := EmuLink.Reach.step _ _ r8 (.other _ _ (.issue _ ⟨1, 1300, 1250, 1350, 5, 0⟩ (Or.inl rfl)) rfl (Or.inl rfl))
  have r10 := EmuLink.Reach.step _ _ r9 (.other _ _ (.reply _ ⟨⟨1, 1300, 1250, 1350, 5, 0⟩, 1⟩ _ _ List.mem_cons_self (Or.inl rfl) rfl rfl) rfl (Or.inl rfl))
  exact ⟨_, r10, rfl, fun a ha _ => (by decide : ∀ a ∈ _, a.stored = true) a ha, rfl, _, List.mem_cons_self, rfl, rfl, rfl, rfl⟩

/-- **C120, negative part (1)**: a gap in the recorded run is not replayed. The payload of time 34 comes out
with time 22 (tick 1: one step is 12). -/
theorem C120_gap_counterexample :
    ∃ s, RecSess.Reach Record.demoT 2 (fun n => n * 4 / 5) ⟨4, false, 4, false⟩ RecSess.oneByte 4 s ∧
      s.th = .ready ∧ s.recs = [(0, [10, 34])] ∧
      ∃ e, Emu.run (emulator s.w.file 1 1) (firstTs none stamp1 s.w.file 1) 2 = .ok e ∧
        e.out = [([10], 10), ([34], 22)] := by
  obtain ⟨s, h, v⟩ := RecSess.moves_view (limit := 2) (toPop := fun n => n * 4 / 5) (fc := ⟨4, false, 4, false⟩) (n := 4)
    (by decide) (by decide) ([.arrive 10, .arrive 34, .command] ++ RecSess.recMoves 7)
    ⟨[(0, [10, 34])], [10, 34], [.started], .ready, [10, 34], []⟩ (by decide +kernel)
  simp only [RecSess.view, RecSess.View.mk.injEq] at v
  obtain ⟨hr, hf, -, ht, -, -⟩ := v
  exact ⟨s, h, ht, hr, by rw [hf]; exact ⟨_, rfl, rfl⟩⟩

/-- **C120, negative part (2)**: after two record commands in a run without gaps the file holds the payloads twice,
and the replay gives the payload of time 10 again with time 34. -/
theorem C120_repeated_counterexample :
    ∃ s, RecSess.Reach Record.demoT 2 (fun n => n * 4 / 5) ⟨4, false, 4, false⟩ RecSess.oneByte 4 s ∧
      s.th = .ready ∧ s.hist 0 = [10, 22] ∧
      ∃ e, Emu.run (emulator s.w.file 1 1) (firstTs none stamp1 s.w.file 1) 4 = .ok e ∧
        e.out = [([10], 10), ([22], 22), ([10], 34), ([22], 46)] := by
  obtain ⟨s, h, v⟩ := RecSess.moves_view (limit := 2) (toPop := fun n => n * 4 / 5) (fc := ⟨4, false, 4, false⟩) (n := 4)
    (by decide) (by decide) ([.arrive 10, .arrive 22, .command] ++ RecSess.recMoves 7 ++ [.command] ++ RecSess.recMoves 7)
    ⟨[(0, [10, 22]), (0, [10, 22])], [10, 22, 10, 22], [.started, .started], .ready, [10, 22], []⟩ (by decide +kernel)
  simp only [RecSess.view, RecSess.View.mk.injEq] at v
  obtain ⟨hr, hf, -, ht, hh, -⟩ := v
  exact ⟨s, h, ht, hh, by rw [hf]; exact ⟨_, rfl, rfl⟩⟩

end Verif.Replay
