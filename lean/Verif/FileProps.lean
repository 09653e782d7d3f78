import Verif.FileModel
/- Properties C45, C46, C53: the buffered file writer and reader, and the recorder. -/
namespace Verif.File

/-- All bytes written by a sequence of calls. -/
def written : List Op → List Nat
  | [] => []
  | .write b :: os => b ++ written os
  | .flush :: os => written os

/-- Every flush happens when the number of bytes written so far (`n` before) is a multiple of `a`. -/
def AlignedFlushes (a : Nat) : Nat → List Op → Prop
  | _, [] => True
  | n, .write b :: os => AlignedFlushes a (n + b.length) os
  | n, .flush :: os => n % a = 0 ∧ AlignedFlushes a n os

/-- What `data` written over a file with contents `old` leads to. -/
def overlay (old data : List Nat) : List Nat := data ++ old.drop data.length

/-- Invariant of an open, healthy writer to which `data` was written, the file having held `old`. -/
structure Inv (c : Cfg) (old data : List Nat) (w : W) : Prop where
  opn : w.isOpen = true
  good : w.bad = false
  le : w.off ≤ data.length
  file : w.file = data.take w.off ++ old.drop w.off
  buf : w.buf = data.drop w.off
  len : w.buf.length ≤ c.cap
  dir : w.direct = true → 0 < c.cap ∧ c.cap % c.align = 0 ∧ w.off % c.align = 0

theorem pwrite_overlay (old data : List Nat) (off : Nat) (h : off ≤ data.length) :
    pwrite (data.take off ++ old.drop off) off (data.drop off) = overlay old data := by
  unfold pwrite overlay
  have hl : (data.take off).length = off := by simp; omega
  have h1 : (data.take off ++ old.drop off).take off = data.take off := by
    rw [List.take_append_of_le_length (by omega), List.take_of_length_le (by omega)]
  have h2 : (data.take off ++ old.drop off).drop (off + (data.drop off).length) = old.drop data.length := by
    rw [List.drop_append, List.drop_of_length_le (by rw [hl]; omega), List.drop_drop, hl]
    simp only [List.length_drop, List.nil_append]
    congr 1; omega
  rw [h1, h2, List.take_append_drop]

/-- A sync that the descriptor accepts. -/
theorem sync_ok (c : Cfg) (old data : List Nat) (w : W) (h : Inv c old data w)
    (hd : w.direct = true → w.buf.length % c.align = 0) :
    sync c w = { w with file := overlay old data, off := data.length, buf := [] } := by
  unfold sync fdWrite
  rw [if_neg]
  · simp only
    rw [h.file, h.buf, pwrite_overlay _ _ _ h.le]
    have := h.le
    have e : w.off + (data.drop w.off).length = data.length := by simp; omega
    rw [e]
  · rintro ⟨h1, h2⟩
    rcases h2 with h2 | h2
    · exact h2 (hd h1)
    · exact h2 (h.dir h1).2.2

theorem synced_inv (c : Cfg) (old data : List Nat) (w : W) (h : Inv c old data w)
    (hd : w.direct = true → data.length % c.align = 0) :
    Inv c old data { w with file := overlay old data, off := data.length, buf := [] } := by
  refine ⟨h.opn, h.good, Nat.le_refl _, ?_, ?_, by simp, ?_⟩
  · simp [overlay]
  · simp
  · intro h1; exact ⟨(h.dir h1).1, (h.dir h1).2.1, hd h1⟩

theorem putc_inv (c : Cfg) (old data : List Nat) (w : W) (x : Nat) (h : Inv c old data w) :
    Inv c old (data ++ [x]) (putc c w x) ∧ (putc c w x).direct = w.direct := by
  unfold putc
  by_cases hc : c.cap = 0
  · rw [if_pos hc]
    have hnd : w.direct = false := by
      cases hd : w.direct with
      | false => rfl
      | true => have := (h.dir hd).1; omega
    have hb : w.buf = [] := by
      have := h.len; rw [hc] at this
      exact List.length_eq_zero_iff.1 (by omega)
    have hoff : w.off = data.length := by
      have h1 := h.buf; rw [hb] at h1
      have : (data.drop w.off).length = 0 := by rw [← h1]; rfl
      have := h.le
      simp at *; omega
    unfold fdWrite
    rw [if_neg (by simp [hnd])]
    simp only
    refine ⟨⟨h.opn, h.good, by simp [hoff], ?_, ?_, h.len, ?_⟩, ?_⟩
    · simp only
      have := pwrite_overlay old (data ++ [x]) w.off (by simp; omega)
      rw [hoff] at this
      simp at this
      rw [h.file, hoff]
      rw [List.take_length, this]
      have e : (data ++ [x]).take (data.length + 1) = data ++ [x] := List.take_of_length_le (by simp)
      simp only [overlay, List.length_singleton, List.length_append, e]
    · simp [hb, hoff]
    · intro h1; simp [hnd] at h1
    · trivial
  · rw [if_neg hc]
    by_cases hf : w.buf.length = c.cap
    · have hs := sync_ok c old data w h (by intro h1; rw [hf]; exact (h.dir h1).2.1)
      have hal : w.direct = true → data.length % c.align = 0 := by
        intro h1
        have hb := h.buf
        have e : data.length = w.off + c.cap := by
          rw [← hf, hb]; have := h.le; simp; omega
        rw [e, Nat.add_mod, (h.dir h1).2.1, (h.dir h1).2.2]; simp
      have hi := synced_inv c old data w h hal
      rw [if_pos hf, hs]
      simp only [h.good, Bool.false_eq_true, if_false]
      refine ⟨⟨h.opn, rfl, by simp, ?_, ?_, by simp; omega, ?_⟩, trivial⟩
      · simp [overlay]
      · simp
      · exact hi.dir
    · rw [if_neg hf]
      simp only [h.good, Bool.false_eq_true, if_false]
      refine ⟨⟨h.opn, rfl, by have := h.le; simp; omega, ?_, ?_, ?_, h.dir⟩, trivial⟩
      · simp only
        rw [h.file, List.take_append_of_le_length h.le]
      · simp only
        rw [h.buf, List.drop_append_of_le_length h.le]
      · have := h.len; simp; omega

theorem puts_inv (c : Cfg) (old : List Nat) (b data : List Nat) (w : W) (h : Inv c old data w) :
    Inv c old (data ++ b) (puts c w b) ∧ (puts c w b).direct = w.direct := by
  induction b generalizing data w with
  | nil => simpa [puts] using h
  | cons x xs ih =>
    obtain ⟨h1, h2⟩ := putc_inv c old data w x h
    have := ih (data ++ [x]) (putc c w x) h1
    simp only [puts, h.good]
    rw [List.append_assoc] at this
    exact ⟨this.1, by simpa [h2] using this.2⟩

theorem write_inv (c : Cfg) (old b data : List Nat) (w : W) (h : Inv c old data w) :
    Inv c old (data ++ b) (write c w b).1 ∧ (write c w b).2 = true ∧
      (write c w b).1.direct = w.direct := by
  obtain ⟨h1, h2⟩ := puts_inv c old b data w h
  have e : write c w b = (puts c w b, !(puts c w b).bad) := by simp [write, h.opn]
  rw [e]
  exact ⟨h1, by simp [h1.good], h2⟩

theorem flush_eq (c : Cfg) (w : W) (h : w.bad = true ∧ c.syncBad = false → False) :
    flush c w = { sync c { w with direct := false } with direct := c.useDirect } := by
  have : flush c w = { (if w.bad = true ∧ c.syncBad = false then { w with direct := false } else
    sync c { w with direct := false }) with direct := c.useDirect } := rfl
  rw [this, if_neg h]

theorem flush_inv (c : Cfg) (old data : List Nat) (w : W) (h : Inv c old data w)
    (hd : c.useDirect = true → 0 < c.cap ∧ c.cap % c.align = 0 ∧ data.length % c.align = 0) :
    Inv c old data (flush c w) ∧ (flush c w).direct = c.useDirect ∧
      (flush c w).file = overlay old data := by
  have h0 : Inv c old data { w with direct := false } :=
    ⟨h.opn, h.good, h.le, h.file, h.buf, h.len, by simp⟩
  have hs := sync_ok c old data _ h0 (by simp)
  have e : flush c w = { w with direct := c.useDirect, file := overlay old data, off := data.length, buf := [] } := by
    rw [flush_eq c w (by simp [h.good]), hs]
  rw [e]
  refine ⟨⟨h.opn, h.good, Nat.le_refl _, by simp [overlay], by simp, by simp, ?_⟩, rfl, rfl⟩
  intro h1; exact hd h1

theorem close_file (c : Cfg) (old data : List Nat) (w : W) (h : Inv c old data w) :
    (close c w).file = overlay old data ∧ (close c w).isOpen = false := by
  have h0 : Inv c old data { w with direct := false } :=
    ⟨h.opn, h.good, h.le, h.file, h.buf, h.len, by simp⟩
  have hs := sync_ok c old data _ h0 (by simp)
  unfold close
  rw [hs]
  exact ⟨rfl, rfl⟩

/-- The circumstances under which the writer is reliable: either no O_DIRECT, or a buffer that is a
positive multiple of the alignment and flushes only at aligned lengths. -/
def Reliable (c : Cfg) (n : Nat) (os : List Op) : Prop :=
  c.useDirect = false ∨ (0 < c.cap ∧ c.cap % c.align = 0 ∧ AlignedFlushes c.align n os)

theorem ops_inv (c : Cfg) (old : List Nat) (os : List Op) (data : List Nat) (w : W)
    (h : Inv c old data w) (hr : Reliable c data.length os) :
    Inv c old (data ++ written os) (ops c w os).1 ∧ (∀ b ∈ (ops c w os).2, b = true) := by
  induction os generalizing data w with
  | nil => simpa [ops, written] using h
  | cons o os ih =>
    cases o with
    | write b =>
      obtain ⟨h1, h2, h3⟩ := write_inv c old b data w h
      have := ih (data ++ b) (write c w b).1 h1 (by
        rcases hr with hr | hr
        · exact Or.inl hr
        · refine Or.inr ⟨hr.1, hr.2.1, ?_⟩
          have := hr.2.2
          simpa [AlignedFlushes] using this)
      simp only [ops, written]
      rw [← List.append_assoc]
      refine ⟨this.1, ?_⟩
      intro x hx
      rcases List.mem_cons.1 hx with e | hx
      · rw [e]; exact h2
      · exact this.2 x hx
    | flush =>
      obtain ⟨h1, -, -⟩ := flush_inv c old data w h (by
        intro hd
        rcases hr with hr | hr
        · rw [hr] at hd; cases hd
        · exact ⟨hr.1, hr.2.1, hr.2.2.1⟩)
      exact ih data (flush c w) h1 (by
        rcases hr with hr | hr
        · exact Or.inl hr
        · exact Or.inr ⟨hr.1, hr.2.1, hr.2.2.2⟩)

theorem open_inv (c : Cfg) (old : List Nat) (h : c.useDirect = false ∨ (0 < c.cap ∧ c.cap % c.align = 0)) :
    Inv c old [] (openW c old) := by
  refine ⟨rfl, rfl, Nat.le_refl _, by simp [openW], rfl, by simp [openW], ?_⟩
  intro hd
  rcases h with h | h
  · simp [openW, h] at hd
  · exact ⟨h.1, h.2, by simp [openW]⟩

theorem reliable_open (c : Cfg) (os : List Op) (h : Reliable c 0 os) :
    c.useDirect = false ∨ (0 < c.cap ∧ c.cap % c.align = 0) := by
  rcases h with h | h
  · exact Or.inl h
  · exact Or.inr ⟨h.1, h.2.1⟩

theorem reads_records (k : Nat) (hk : 0 < k) (recs : List (List Nat)) (hr : ∀ r ∈ recs, r.length = k) :
    reads k (recs.length + 1) ⟨true, recs.flatten⟩ = recs.map some ++ [none] := by
  induction recs with
  | nil => simp [reads, read]; omega
  | cons r rs ih =>
    have hl := hr r (by simp)
    have h1 : read k ⟨true, (r :: rs).flatten⟩ = (⟨true, rs.flatten⟩, some r) := by
      simp only [read, List.flatten_cons]
      have e1 : (r ++ rs.flatten).take k = r := by
        rw [List.take_append_of_le_length (by omega), List.take_of_length_le (by omega)]
      have e2 : (r ++ rs.flatten).drop k = rs.flatten := by
        rw [List.drop_append_of_le_length (by omega), List.drop_of_length_le (by omega)]; rfl
      rw [e1, e2]; simp [hl]
    have h2 := ih (fun r' hr' => hr r' (by simp [hr']))
    show (read k ⟨true, (r :: rs).flatten⟩).2 :: reads k (rs.length + 1) (read k ⟨true, (r :: rs).flatten⟩).1 = _
    rw [h1, h2]; rfl

/-- The records of a sequence of calls. -/
def records : List Op → List (List Nat)
  | [] => []
  | .write b :: os => b :: records os
  | .flush :: os => records os

theorem written_flatten (os : List Op) : written os = (records os).flatten := by
  induction os with
  | nil => rfl
  | cons o os ih => cases o <;> simp [written, records, ih]

/-- **C45 (partial)** Writing any records into a fresh file, with flushes anywhere, and closing: all
writes are reported successful, the file holds exactly the written bytes, and reading records of
the common size `k` gives back exactly the written records in order and then fails; a closed or
never opened writer refuses. Missing: with O_DIRECT, flushes at lengths that are not a multiple of
the alignment and buffer sizes that are no positive multiple of the alignment; there the claim is false. -/
theorem C45_round_trip_partial (c : Cfg) (os : List Op) (hr : Reliable c 0 os) :
    (∀ b ∈ (ops c (openW c []) os).2, b = true) ∧
    (close c (ops c (openW c []) os).1).file = (records os).flatten ∧
    (∀ k, 0 < k → (∀ r ∈ records os, r.length = k) →
      reads k ((records os).length + 1) ⟨true, (close c (ops c (openW c []) os).1).file⟩ =
        (records os).map some ++ [none]) ∧
    (∀ b, write c (close c (ops c (openW c []) os).1) b = (close c (ops c (openW c []) os).1, false)) ∧
    (∀ f b, write c (closedW f) b = (closedW f, false)) := by
  obtain ⟨h1, h2⟩ := ops_inv c [] os [] (openW c []) (open_inv c [] (reliable_open c os hr)) hr
  obtain ⟨h3, h4⟩ := close_file c _ _ _ h1
  have h5 : (close c (ops c (openW c []) os).1).file = (records os).flatten := by
    rw [h3]; simp [overlay, written_flatten]
  refine ⟨h2, h5, ?_, ?_, ?_⟩
  · intro k hk hrec
    rw [h5]; exact reads_records k hk _ hrec
  · intro b; simp [write, h4]
  · intro f b; simp [write, closedW]

/-- Non-vacuity: O_DIRECT, alignment 2, buffer of 2, a flush at an even length. -/
example : Reliable ⟨2, true, 2, false⟩ 0 [.write [1, 2, 3, 4], .flush, .write [5, 6, 7, 8]] := by
  right; simp [AlignedFlushes]

theorem puts_fit (c : Cfg) : ∀ (xs : List Nat) (w : W), w.bad = false → 0 < c.cap →
    w.buf.length + xs.length ≤ c.cap → puts c w xs = { w with buf := w.buf ++ xs }
  | [], w, _, _, _ => by simp [puts]
  | x :: xs, w, hb, hc, hl => by
    simp only [List.length_cons] at hl
    have e : putc c w x = { w with buf := w.buf ++ [x] } := by
      have h1 : ¬ c.cap = 0 := by omega
      have h2 : ¬ w.buf.length = c.cap := by omega
      simp [putc, h1, h2, hb]
    rw [puts, if_neg (by simp [hb]), e, puts_fit c xs { w with buf := w.buf ++ [x] } hb hc (by simp; omega)]
    simp

theorem puts_append (c : Cfg) : ∀ (xs ys : List Nat) (w : W), puts c w (xs ++ ys) = puts c (puts c w xs) ys
  | [], ys, w => by simp [puts]
  | x :: xs, ys, w => by
    by_cases h : w.bad = true
    · have hs : ∀ zs, puts c w zs = w := by intro zs; cases zs <;> simp [puts, h]
      rw [hs, hs, hs]
    · rw [List.cons_append, puts, puts, if_neg h, if_neg h, puts_append c xs ys]

/-- **C45 is false of the code with O_DIRECT (buffer size)**: with a buffer whose size is no multiple of the
alignment, every record longer than the buffer is refused and only its first part is in the file; the longest
file that can be written is one buffer. -/
theorem C45_unaligned_buffer_counterexample (cap align : Nat) (sb : Bool) (hc : 0 < cap) (ha : cap % align ≠ 0)
    (b : List Nat) (hb : cap < b.length) :
    (write ⟨cap, true, align, sb⟩ (openW ⟨cap, true, align, sb⟩ []) b).2 = false ∧
    (close ⟨cap, true, align, sb⟩ (write ⟨cap, true, align, sb⟩ (openW ⟨cap, true, align, sb⟩ []) b).1).file =
      b.take cap := by
  have e : puts ⟨cap, true, align, sb⟩ (openW ⟨cap, true, align, sb⟩ []) b =
      ⟨true, true, true, b.take cap, 0, []⟩ := by
    have hsplit : b = b.take cap ++ b.drop cap := (List.take_append_drop cap b).symm
    cases hd : b.drop cap with
    | nil => have := congrArg List.length hd; simp at this; omega
    | cons x rest =>
      have hl : (b.take cap).length = cap := by simp; omega
      conv => lhs; rw [hsplit, hd, puts_append]
      rw [puts_fit _ (b.take cap) (openW ⟨cap, true, align, sb⟩ []) rfl hc (by simp [openW]; omega)]
      have hne : ¬ cap = 0 := by omega
      have e1 : putc ⟨cap, true, align, sb⟩
          { openW ⟨cap, true, align, sb⟩ [] with buf := (openW ⟨cap, true, align, sb⟩ []).buf ++ b.take cap } x =
          ⟨true, true, true, b.take cap, 0, []⟩ := by
        simp [putc, hne, openW, sync, fdWrite, Nat.min_eq_left (Nat.le_of_lt hb), ha]
      rw [puts, if_neg (by simp [openW]), e1]
      cases rest <;> simp [puts]
  have e2 : write ⟨cap, true, align, sb⟩ (openW ⟨cap, true, align, sb⟩ []) b =
      (⟨true, true, true, b.take cap, 0, []⟩, false) := by
    simp only [write, e]
    simp [openW]
  rw [e2]
  refine ⟨rfl, ?_⟩
  simp [close, sync, fdWrite, pwrite]

/-- Non-vacuity: a buffer of 6 bytes, alignment 4, a record of 7. -/
example : (write ⟨6, true, 4, true⟩ (openW ⟨6, true, 4, true⟩ []) [1, 2, 3, 4, 5, 6, 7]).2 = false := by decide

/-- **C45 is false of the code with O_DIRECT**: after a flush at an unaligned length the next buffer
write fails, whatever the buffer size and alignment: here alignment 4, buffer 4, records of one
byte. The fifth write after the flush is refused and its record is missing from the file. -/
theorem C45_flush_direct_counterexample (sb : Bool) :
    (ops ⟨4, true, 4, sb⟩ (openW ⟨4, true, 4, sb⟩ [])
      [.write [1], .flush, .write [2], .write [3], .write [4], .write [5], .write [6], .write [7]]).2 =
        [true, true, true, true, true, false, false] ∧
    (close ⟨4, true, 4, sb⟩ (ops ⟨4, true, 4, sb⟩ (openW ⟨4, true, 4, sb⟩ [])
      [.write [1], .flush, .write [2], .write [3], .write [4], .write [5], .write [6], .write [7]]).1).file =
        [1, 2, 3, 4, 5] := by
  cases sb <;> decide

/-- **C46 (what the code does)** Writing over a file with contents `old`: the new bytes replace a prefix
of the old contents, and whatever of the old contents is longer stays. -/
theorem C46_overlay (c : Cfg) (old : List Nat) (os : List Op) (hr : Reliable c 0 os) :
    (close c (ops c (openW c old) os).1).file = written os ++ old.drop (written os).length := by
  obtain ⟨h1, -⟩ := ops_inv c old os [] (openW c old) (open_inv c old (reliable_open c os hr)) hr
  obtain ⟨h3, -⟩ := close_file c _ _ _ h1
  rw [h3]; simp [overlay]

example : Reliable ⟨4, false, 1, true⟩ 0 [.write [9, 8]] ∧
    written [.write [9, 8]] ++ [1, 2, 3].drop (written [.write [9, 8]]).length = [9, 8, 3] := by
  exact ⟨Or.inl rfl, by decide⟩

/-- **C46 (partial)** The file is exactly what was written if that is at least as long as the old
contents. -/
theorem C46_overwritten_partial (c : Cfg) (old : List Nat) (os : List Op) (hr : Reliable c 0 os)
    (hl : old.length ≤ (written os).length) :
    (close c (ops c (openW c old) os).1).file = written os := by
  rw [C46_overlay c old os hr, List.drop_of_length_le hl, List.append_nil]

example : (close ⟨4, false, 1, false⟩ (ops ⟨4, false, 1, false⟩ (openW ⟨4, false, 1, false⟩ [1, 2, 3])
    [.write [9, 8], .flush, .write [7, 6]]).1).file = [9, 8, 7, 6] := by decide

/-- **C46 is false of the code**: for every longer old file the old tail survives (no truncation on
opening). -/
theorem C46_not_truncated_counterexample (c : Cfg) (old : List Nat) (os : List Op)
    (hr : Reliable c 0 os) (hl : (written os).length < old.length) :
    (close c (ops c (openW c old) os).1).file ≠ written os := by
  rw [C46_overlay c old os hr]
  intro h
  have := congrArg List.length h
  simp at this
  omega

example : (close ⟨4, false, 1, false⟩ (ops ⟨4, false, 1, false⟩ (openW ⟨4, false, 1, false⟩ [1, 2, 3]) [.write [9]]).1).file
    = [9, 2, 3] := by decide

/-- The payloads of a sequence of pops. -/
def payloads (ps : List Pop) : List (List Nat) :=
  ps.filterMap (fun p => match p with | .got b => some b | .timeout => none)

theorem loop_inv (c : Cfg) (old : List Nat) (ps : List Pop) (data : List Nat) (r : Rec)
    (h : Inv c old data r.w) :
    Inv c old (data ++ (payloads ps).flatten) (loop c r ps).1.w ∧
    (loop c r ps).1.total = r.total + (payloads ps).length ∧ (loop c r ps).2 = [] := by
  induction ps generalizing data r with
  | nil => simpa [loop, payloads] using h
  | cons p ps ih =>
    cases p with
    | timeout => exact ih data r h
    | got b =>
      obtain ⟨h1, h2, h3⟩ := write_inv c old b data r.w h
      have := ih (data ++ b) ⟨(write c r.w b).1, r.total + 1⟩ h1
      have e : loop c r (.got b :: ps) = loop c ⟨(write c r.w b).1, r.total + 1⟩ ps := by
        simp [loop, h2]
      have e2 : payloads (.got b :: ps) = b :: payloads ps := rfl
      rw [e, e2]
      refine ⟨?_, ?_, this.2.2⟩
      · have := this.1
        rw [List.append_assoc] at this
        simpa using this
      · rw [this.2.1]; simp; omega

/-- **C53 (partial, one run)** After conf, a run and its stop: every pop offered was taken, the file is
the concatenation of the popped payloads in order and the counter their number; without O_DIRECT or with
a buffer that is a positive multiple of the alignment. -/
theorem C53_first_run_partial (c : Cfg) (ps : List Pop)
    (h : c.useDirect = false ∨ (0 < c.cap ∧ c.cap % c.align = 0)) :
    (runOnce c (conf c) ps).1.w.file = (payloads ps).flatten ∧
    (runOnce c (conf c) ps).1.total = (payloads ps).length ∧ (runOnce c (conf c) ps).2 = [] := by
  obtain ⟨h1, h2, h3⟩ := loop_inv c [] ps [] ⟨openW c [], 0⟩ (open_inv c [] h)
  refine ⟨?_, by simpa [runOnce, conf] using h2, h3⟩
  have h0 : Inv c [] ([] ++ (payloads ps).flatten) { (loop c ⟨openW c [], 0⟩ ps).1.w with direct := false } :=
    ⟨h1.opn, h1.good, h1.le, h1.file, h1.buf, h1.len, by simp⟩
  have hs := sync_ok c [] _ _ h0 (by simp)
  show (flush c (loop c ⟨openW c [], 0⟩ ps).1.w).file = _
  rw [flush_eq c _ (by simp [h1.good])]
  show (sync c _).file = _
  rw [hs]
  simp [overlay]

example (sb : Bool) : (runOnce ⟨4, true, 2, sb⟩ (conf ⟨4, true, 2, sb⟩) [.got [1, 2, 3], .timeout, .got [4, 5]]).1.w.file
    = [1, 2, 3, 4, 5] := by cases sb <;> decide

/-- **C53 (partial, any number of runs)** Without O_DIRECT: after any sequence of runs without
reconfiguration, the file is the concatenation of everything popped, in order; the counter is that of
the last run. -/
theorem C53_many_runs_partial (c : Cfg) (hd : c.useDirect = false) (rs : List (List Pop)) (last : List Pop) :
    (runs c (conf c) (rs ++ [last])).w.file = ((rs ++ [last]).flatMap payloads).flatten ∧
    (runs c (conf c) (rs ++ [last])).total = (payloads last).length := by
  have key : ∀ (rs : List (List Pop)) (data : List Nat) (r : Rec), Inv c [] data r.w →
      (runs c r (rs ++ [last])).w.file = data ++ ((rs ++ [last]).flatMap payloads).flatten ∧
      (runs c r (rs ++ [last])).total = (payloads last).length := by
    intro rs
    induction rs with
    | nil =>
      intro data r h
      obtain ⟨h1, h2, -⟩ := loop_inv c [] last data ⟨r.w, 0⟩ h
      obtain ⟨-, -, f3⟩ := flush_inv c [] _ _ h1 (by simp [hd])
      refine ⟨?_, ?_⟩
      · show (flush c (loop c ⟨r.w, 0⟩ last).1.w).file = _
        rw [f3]; simp [overlay]
      · show (loop c ⟨r.w, 0⟩ last).1.total = _
        rw [h2]; simp
    | cons ps rs ih =>
      intro data r h
      obtain ⟨h1, h2, -⟩ := loop_inv c [] ps data ⟨r.w, 0⟩ h
      obtain ⟨f1, -, -⟩ := flush_inv c [] _ _ h1 (by simp [hd])
      obtain ⟨i1, i2⟩ := ih _ (runOnce c r ps).1 f1
      refine ⟨?_, i2⟩
      show (runs c (runOnce c r ps).1 (rs ++ [last])).w.file = _
      rw [i1]
      simp
  have := key rs [] (conf c) (open_inv c [] (Or.inl hd))
  simpa using this

example : (runs ⟨4, false, 2, true⟩ (conf ⟨4, false, 2, true⟩) ([[.got [1], .got [2, 3]]] ++ [[.got [4]]])).w.file
    = [1, 2, 3, 4] := by decide

/-- **C53 is false of the code with O_DIRECT**: the flush at the end of a run leaves an unaligned
length, so in the next run the first full buffer cannot be written: the payload popped at that point is
lost and recording ends, leaving the remaining input untouched. -/
theorem C53_second_run_counterexample (sb : Bool) :
    let r1 := (runOnce ⟨4, true, 4, sb⟩ (conf ⟨4, true, 4, sb⟩) [.got [1]]).1
    let r2 := runOnce ⟨4, true, 4, sb⟩ r1 [.got [2], .got [3], .got [4], .got [5], .got [6], .got [7]]
    r1.w.file = [1] ∧ r2.2 = [.got [7]] ∧ r2.1.total = 5 ∧ 6 ∉ r2.1.w.file := by
  cases sb <;> decide

/-- Bytes that are or will be in the file. -/
def stored (w : W) : List Nat := w.file.take w.off ++ w.buf

/-- **C53: the failure is permanent.** A writer in the bad state stores nothing more: whatever arrives
in later runs, each run takes at most one payload and none is stored, until the next conf. -/
theorem C53_bad_is_permanent (c : Cfg) (r : Rec) (ps : List Pop) (hb : r.w.bad = true)
    (hl : r.w.off ≤ r.w.file.length) :
    (runOnce c r ps).1.w.bad = true ∧ stored (runOnce c r ps).1.w = stored r.w ∧
    (runOnce c r ps).1.total ≤ 1 ∧ (runOnce c r ps).1.w.off ≤ (runOnce c r ps).1.w.file.length := by
  have hput : ∀ b, puts c r.w b = r.w := by intro b; cases b <;> simp [puts, hb]
  have hw : ∀ b, (write c r.w b).1 = r.w ∧ (write c r.w b).2 = false := by
    intro b; unfold write; split
    · exact ⟨rfl, rfl⟩
    · simp [hput, hb]
  have hloop : ∀ ps, (loop c ⟨r.w, 0⟩ ps).1.w = r.w ∧ (loop c ⟨r.w, 0⟩ ps).1.total ≤ 1 := by
    intro ps
    induction ps with
    | nil => simp [loop]
    | cons p ps ih =>
      cases p with
      | timeout => exact ih
      | got b =>
        have e : loop c ⟨r.w, 0⟩ (.got b :: ps) = (⟨(write c r.w b).1, 0 + 1⟩, ps) := by
          simp [loop, (hw b).2]
        rw [e]; exact ⟨(hw b).1, by simp⟩
  obtain ⟨l1, l2⟩ := hloop ps
  have hf : (flush c r.w).bad = true ∧ stored (flush c r.w) = stored r.w ∧
      (flush c r.w).off ≤ (flush c r.w).file.length := by
    by_cases hsb : c.syncBad = false
    · have : flush c r.w = { r.w with direct := c.useDirect } := by simp [flush, hb, hsb]
      rw [this]; exact ⟨hb, rfl, hl⟩
    · rw [flush_eq c _ (fun h => hsb h.2)]
      have : sync c { r.w with direct := false } =
          { r.w with direct := false, file := pwrite r.w.file r.w.off r.w.buf, off := r.w.off + r.w.buf.length, buf := [] } := by
        simp [sync, fdWrite]
      rw [this]
      refine ⟨hb, ?_, ?_⟩
      · simp only [stored, pwrite, List.append_nil]
        rw [List.take_append_of_le_length (by simp; omega), List.take_of_length_le (by simp; omega)]
      · simp [pwrite]; omega
  refine ⟨?_, ?_, l2, ?_⟩
  · show (flush c (loop c ⟨r.w, 0⟩ ps).1.w).bad = true; rw [l1]; exact hf.1
  · show stored (flush c (loop c ⟨r.w, 0⟩ ps).1.w) = _; rw [l1]; exact hf.2.1
  · show (flush c (loop c ⟨r.w, 0⟩ ps).1.w).off ≤ (flush c (loop c ⟨r.w, 0⟩ ps).1.w).file.length
    rw [l1]; exact hf.2.2

/-- A writer in that state: O_DIRECT, a run that ended at an odd length, then a full buffer. -/
example (sb : Bool) :
    let r1 := (runOnce ⟨4, true, 4, sb⟩ (conf ⟨4, true, 4, sb⟩) [.got [1]]).1
    let r2 := (runOnce ⟨4, true, 4, sb⟩ r1 [.got [2], .got [3], .got [4], .got [5], .got [6], .got [7]]).1
    r2.w.bad = true ∧ r2.w.off ≤ r2.w.file.length := by
  cases sb <;> decide

end Verif.File
