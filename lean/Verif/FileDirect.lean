import Verif.FileProps
/- Properties C45 and C53 with O_DIRECT: exactly when nothing is lost. -/
namespace Verif.File

/-! ### Specification -/

/-- With O_DIRECT a stretch of `k` bytes, the first of which has `n` bytes before it in the file, goes through: it fits
into the buffer, or begins on a block boundary and buffers are whole blocks. -/
def Through (c : Cfg) (n k : Nat) : Prop := k ≤ c.cap ∨ (n % c.align = 0 ∧ c.cap % c.align = 0)

/-- Every stretch between two flushes (or after the last one) goes through; `n` bytes were written before the last flush,
`k` since. -/
def Fits (c : Cfg) : Nat → Nat → List Op → Prop
  | _, _, [] => True
  | n, k, .write b :: os => Through c n (k + b.length) ∧ Fits c n (k + b.length) os
  | n, k, .flush :: os => Fits c (n + k) 0 os

/-- Stretches of the given lengths go through, each from where the one before ended; `n` bytes were written before. -/
def AllThrough (c : Cfg) : Nat → List Nat → Prop
  | _, [] => True
  | n, k :: ks => Through c n k ∧ AllThrough c (n + k) ks

/-! ### A healthy writer -/

/-- An open, healthy writer with O_DIRECT on a file that was new: `data` written, `n` bytes of it before the last flush and `k`
since. -/
structure Ok (c : Cfg) (data : List Nat) (n k : Nat) (w : W) : Prop where
  opn : w.isOpen = true
  good : w.bad = false
  dir : w.direct = true
  le : w.off ≤ data.length
  file : w.file = data.take w.off
  buf : w.buf = data.drop w.off
  len : w.buf.length ≤ c.cap
  size : data.length = n + k
  off : (n % c.align = 0 ∧ c.cap % c.align = 0 ∧ w.off % c.align = 0) ∨ (w.off = n ∧ k ≤ c.cap)

/-- A writer that has lost something: the file and the buffer together hold a beginning of `data`, but not all. -/
structure Lost (data : List Nat) (w : W) : Prop where
  bad : w.bad = true
  off : w.off = w.file.length
  less : ∃ rest, rest ≠ [] ∧ w.file ++ w.buf ++ rest = data

theorem pwrite_end (data : List Nat) (off : Nat) (h : off ≤ data.length) :
    pwrite (data.take off) off (data.drop off) = data := by
  have := pwrite_overlay [] data off h
  simpa [overlay] using this

theorem Ok.buf_len {c : Cfg} {data : List Nat} {n k : Nat} {w : W} (h : Ok c data n k w) :
    w.off + w.buf.length = data.length := by
  rw [h.buf]; have := h.le; simp; omega

/-- Emptying the buffer when the descriptor accepts it. -/
theorem Ok.sync {c : Cfg} {data : List Nat} {n k : Nat} {w : W} (h : Ok c data n k w)
    (hb : w.buf.length % c.align = 0) (ho : w.off % c.align = 0) :
    File.sync c w = { w with file := data, off := data.length, buf := [] } := by
  unfold File.sync fdWrite
  rw [if_neg (by simp [hb, ho])]
  simp only
  rw [h.buf_len, h.file, h.buf, pwrite_end data w.off h.le]

/-- A character goes in. -/
theorem putc_ok (c : Cfg) (hc : 0 < c.cap) (data : List Nat) (n k : Nat) (w : W) (x : Nat) (h : Ok c data n k w)
    (ht : Through c n (k + 1)) : Ok c (data ++ [x]) n (k + 1) (putc c w x) := by
  have hne : ¬ c.cap = 0 := by omega
  have hl := h.buf_len
  have hs := h.size
  by_cases hf : w.buf.length = c.cap
  · -- the buffer is full: the offset is on a block boundary
    have ha : n % c.align = 0 ∧ c.cap % c.align = 0 ∧ w.off % c.align = 0 := by
      rcases h.off with h1 | ⟨h1, h2⟩
      · exact h1
      · rcases ht with ht | ht
        · omega
        · exact ⟨ht.1, ht.2, by rw [h1]; exact ht.1⟩
    have hsy := h.sync (by rw [hf]; exact ha.2.1) ha.2.2
    have e : putc c w x = { w with file := data, off := data.length, buf := [x] } := by
      simp only [putc, hne, if_false, hf, if_true, hsy, h.good, Bool.false_eq_true, List.nil_append]
    rw [e]
    refine ⟨h.opn, h.good, h.dir, by simp, by simp, by simp, by simp; omega, by simp; omega, Or.inl ⟨ha.1, ha.2.1, ?_⟩⟩
    simp only
    rw [← hl, hf, Nat.add_mod, ha.2.2, ha.2.1]; simp
  · have e : putc c w x = { w with buf := w.buf ++ [x] } := by simp [putc, hne, hf, h.good]
    rw [e]
    refine ⟨h.opn, h.good, h.dir, by have := h.le; simp; omega, ?_, ?_, ?_, by simp; omega, ?_⟩
    · simp only; rw [h.file, List.take_append_of_le_length h.le]
    · simp only; rw [h.buf, List.drop_append_of_le_length h.le]
    · have := h.len; simp; omega
    · rcases h.off with h1 | ⟨h1, h2⟩
      · exact Or.inl h1
      · refine Or.inr ⟨h1, ?_⟩
        have := h.len
        omega

/-- Characters do not go in any more once the writer is bad. -/
theorem puts_bad (c : Cfg) (w : W) (b : List Nat) (h : w.bad = true) : puts c w b = w := by
  cases b <;> simp [puts, h]

/-- A character too many: the full buffer cannot be written. -/
theorem putc_lost (c : Cfg) (hc : 0 < c.cap) (data : List Nat) (n k : Nat) (w : W) (x : Nat) (h : Ok c data n k w)
    (ht : ¬ Through c n (k + 1)) : Lost (data ++ [x]) (putc c w x) := by
  have hne : ¬ c.cap = 0 := by omega
  have hl := h.buf_len
  have hs := h.size
  have h1 : ¬ (k + 1 ≤ c.cap) := fun e => ht (Or.inl e)
  have h2 : ¬ (n % c.align = 0 ∧ c.cap % c.align = 0) := fun e => ht (Or.inr e)
  have ho : w.off = n ∧ k ≤ c.cap := by
    rcases h.off with e | e
    · exact absurd ⟨e.1, e.2.1⟩ h2
    · exact e
  have hf : w.buf.length = c.cap := by omega
  have hbad : w.direct = true ∧ (w.buf.length % c.align ≠ 0 ∨ w.off % c.align ≠ 0) := by
    refine ⟨h.dir, ?_⟩
    by_cases e : c.cap % c.align = 0
    · right; rw [ho.1]; exact fun e' => h2 ⟨e', e⟩
    · left; rw [hf]; exact e
  have hsy : File.sync c w = { w with bad := true } := by
    unfold File.sync fdWrite
    rw [if_pos hbad]
  have e : putc c w x = { w with bad := true } := by
    simp only [putc, hne, if_false, hf, if_true, hsy]
  rw [e]
  have hfl : w.file.length = w.off := by rw [h.file]; have := h.le; simp [this]
  exact ⟨rfl, hfl.symm, [x], by simp, by simp only; rw [h.file, h.buf, List.take_append_drop]⟩

theorem Through.mono {c : Cfg} {n k k' : Nat} (h : Through c n k') (hk : k ≤ k') : Through c n k :=
  h.imp (fun e => by omega) id

theorem puts_ok (c : Cfg) (hc : 0 < c.cap) : ∀ (b data : List Nat) (n k : Nat) (w : W), Ok c data n k w →
    Through c n (k + b.length) → Ok c (data ++ b) n (k + b.length) (puts c w b)
  | [], data, n, k, w, h, _ => by simpa [puts] using h
  | x :: xs, data, n, k, w, h, ht => by
    simp only [puts, h.good, Bool.false_eq_true, if_false]
    have h1 := putc_ok c hc data n k w x h (ht.mono (by simp))
    have := puts_ok c hc xs _ n (k + 1) _ h1 (by simp only [List.length_cons] at ht; rw [Nat.add_assoc, Nat.add_comm 1]; exact ht)
    simpa [Nat.add_assoc, Nat.add_comm 1] using this

theorem puts_lost (c : Cfg) (hc : 0 < c.cap) : ∀ (b data : List Nat) (n k : Nat) (w : W), Ok c data n k w →
    ¬ Through c n (k + b.length) → Lost (data ++ b) (puts c w b)
  | [], data, n, k, w, h, ht => by
    exfalso
    apply ht
    rcases h.off with e | e
    · exact Or.inr ⟨e.1, e.2.1⟩
    · exact Or.inl e.2
  | x :: xs, data, n, k, w, h, ht => by
    simp only [puts, h.good, Bool.false_eq_true, if_false]
    by_cases h1 : Through c n (k + 1)
    · have := puts_lost c hc xs _ n (k + 1) _ (putc_ok c hc data n k w x h h1) (by
        simp only [List.length_cons] at ht; rw [Nat.add_assoc, Nat.add_comm 1]; exact ht)
      simpa using this
    · have hl := putc_lost c hc data n k w x h h1
      rw [puts_bad c _ xs hl.bad]
      obtain ⟨rest, h3, h4⟩ := hl.less
      exact ⟨hl.bad, hl.off, rest ++ xs, by simp [h3], by rw [← List.append_assoc, h4]; simp⟩

theorem pwrite_append (f b : List Nat) (off : Nat) (h : off = f.length) : pwrite f off b = f ++ b := by
  subst h; simp [pwrite]

theorem lost_flush (c : Cfg) (data : List Nat) (w : W) (h : Lost data w) : Lost data (flush c w) := by
  by_cases hs : c.syncBad = false
  · have : flush c w = { w with direct := c.useDirect } := by simp [flush, h.bad, hs]
    rw [this]; exact ⟨h.bad, h.off, h.less⟩
  · rw [flush_eq c w (fun e => hs e.2)]
    have e : File.sync c { w with direct := false } =
        { w with direct := false, file := w.file ++ w.buf, off := w.off + w.buf.length, buf := [] } := by
      rw [← pwrite_append w.file w.buf w.off h.off]
      simp [File.sync, fdWrite]
    rw [e]
    refine ⟨h.bad, ?_, ?_⟩
    · show w.off + w.buf.length = (w.file ++ w.buf).length
      rw [h.off]; simp
    · show ∃ rest, rest ≠ [] ∧ (w.file ++ w.buf) ++ [] ++ rest = data
      rw [List.append_nil]; exact h.less

theorem lost_close (c : Cfg) (data : List Nat) (w : W) (h : Lost data w) :
    ∃ rest, rest ≠ [] ∧ (close c w).file ++ rest = data := by
  have e : (close c w).file = w.file ++ w.buf := by
    rw [← pwrite_append w.file w.buf w.off h.off]
    simp [close, File.sync, fdWrite]
  rw [e]; exact h.less

theorem flush_ok (c : Cfg) (hd : c.useDirect = true) (data : List Nat) (n k : Nat) (w : W) (h : Ok c data n k w) :
    Ok c data (n + k) 0 (flush c w) ∧ (flush c w).file = data := by
  have e : File.sync c { w with direct := false } = { w with direct := false, file := data, off := data.length, buf := [] } := by
    unfold File.sync fdWrite
    rw [if_neg (by simp)]
    simp only
    rw [h.buf_len, h.file, h.buf, pwrite_end data w.off h.le]
  rw [flush_eq c w (by simp [h.good]), e]
  refine ⟨⟨h.opn, h.good, hd, Nat.le_refl _, by simp, by simp, by simp, by have := h.size; omega, Or.inr ⟨?_, by omega⟩⟩, rfl⟩
  have := h.size
  simp only; omega

theorem close_ok (c : Cfg) (data : List Nat) (n k : Nat) (w : W) (h : Ok c data n k w) : (close c w).file = data := by
  have e : File.sync c { w with direct := false } = { w with direct := false, file := data, off := data.length, buf := [] } := by
    unfold File.sync fdWrite
    rw [if_neg (by simp)]
    simp only
    rw [h.buf_len, h.file, h.buf, pwrite_end data w.off h.le]
  show (File.sync c { w with direct := false }).file = data
  rw [e]

theorem write_open (c : Cfg) (w : W) (b : List Nat) (h : w.isOpen = true) :
    write c w b = (puts c w b, !(puts c w b).bad) := by simp [write, h]

/-! ### Sequences of calls -/

/-- What becomes of a sequence of calls: either everything goes through, or something is lost. -/
theorem ops_cases (c : Cfg) (hd : c.useDirect = true) (hc : 0 < c.cap) : ∀ (os : List Op) (data : List Nat) (n k : Nat)
    (w : W), Ok c data n k w →
    (Fits c n k os → (∃ n' k', Ok c (data ++ written os) n' k' (ops c w os).1) ∧ ∀ b ∈ (ops c w os).2, b = true) ∧
    (¬ Fits c n k os → Lost (data ++ written os) (ops c w os).1 ∧ false ∈ (ops c w os).2)
  | [], data, n, k, w, h => by
    refine ⟨fun _ => ⟨⟨n, k, by simpa [ops, written] using h⟩, by simp [ops]⟩, fun hn => absurd trivial hn⟩
  | .write b :: os, data, n, k, w, h => by
    have hw := write_open c w b h.opn
    by_cases ht : Through c n (k + b.length)
    · have h1 := puts_ok c hc b data n k w h ht
      obtain ⟨i1, i2⟩ := ops_cases c hd hc os _ n (k + b.length) _ h1
      refine ⟨?_, ?_⟩
      · intro hf
        obtain ⟨⟨n', k', j1⟩, j2⟩ := i1 hf.2
        simp only [ops, hw, written]
        refine ⟨⟨n', k', by rw [← List.append_assoc]; exact j1⟩, ?_⟩
        intro x hx
        rcases List.mem_cons.1 hx with e | hx
        · rw [e, h1.good]; rfl
        · exact j2 x hx
      · intro hf
        obtain ⟨j1, j2⟩ := i2 (fun e => hf ⟨ht, e⟩)
        simp only [ops, hw, written]
        refine ⟨?_, List.mem_cons_of_mem _ j2⟩
        rw [← List.append_assoc]; exact j1
    · have hl := puts_lost c hc b data n k w h ht
      refine ⟨fun hf => absurd hf.1 ht, fun _ => ?_⟩
      simp only [ops, hw, written]
      have key : ∀ (os : List Op) (w : W) (t : List Nat), Lost t w → Lost (t ++ written os) (ops c w os).1 := by
        intro os
        induction os with
        | nil => intro w t h; simpa [ops, written] using h
        | cons o os ih =>
          intro w t h
          cases o with
          | write b =>
            have e : (write c w b).1 = w := by
              unfold write; split
              · rfl
              · exact puts_bad c w b h.bad
            simp only [ops, written, e]
            obtain ⟨rest, h3, h4⟩ := h.less
            rw [← List.append_assoc]
            exact ih w (t ++ b) ⟨h.bad, h.off, rest ++ b, by simp [h3], by rw [← List.append_assoc, h4]⟩
          | flush => exact ih _ t (lost_flush c t w h)
      refine ⟨?_, by rw [hl.bad]; simp⟩
      rw [← List.append_assoc]
      exact key os _ _ hl
  | .flush :: os, data, n, k, w, h => by
    have h1 := (flush_ok c hd data n k w h).1
    exact ops_cases c hd hc os data (n + k) 0 _ h1

theorem open_ok (c : Cfg) (hd : c.useDirect = true) : Ok c [] 0 0 (openW c []) :=
  ⟨rfl, rfl, hd, Nat.le_refl _, rfl, rfl, Nat.zero_le _, rfl, Or.inr ⟨rfl, Nat.zero_le _⟩⟩

/-- **C45 (O_DIRECT, exact)** With O_DIRECT and a buffer, for every sequence of writes and flushes into a new file: all writes
are reported successful exactly if every stretch between two flushes fits into the buffer or begins on a block
boundary with buffers of whole blocks; and exactly then the file, once closed, holds what was written. So a
loss is always reported. In every case the file holds a beginning of what was written, and nothing else. -/
theorem C45_direct_exact (c : Cfg) (hd : c.useDirect = true) (hc : 0 < c.cap) (os : List Op) :
    ((∀ b ∈ (ops c (openW c []) os).2, b = true) ↔ Fits c 0 0 os) ∧
    ((close c (ops c (openW c []) os).1).file = (records os).flatten ↔ Fits c 0 0 os) ∧
    (close c (ops c (openW c []) os).1).file <+: (records os).flatten := by
  obtain ⟨h1, h2⟩ := ops_cases c hd hc os [] 0 0 _ (open_ok c hd)
  have hok : Fits c 0 0 os → (close c (ops c (openW c []) os).1).file = (records os).flatten := by
    intro hf
    obtain ⟨⟨n', k', h⟩, -⟩ := h1 hf
    rw [close_ok c _ _ _ _ h, written_flatten, List.nil_append]
  refine ⟨⟨?_, fun hf => (h1 hf).2⟩, ⟨?_, hok⟩, ?_⟩
  · intro hall
    by_cases hf : Fits c 0 0 os
    · exact hf
    · exact absurd (hall _ (h2 hf).2) (by simp)
  · intro he
    by_cases hf : Fits c 0 0 os
    · exact hf
    · obtain ⟨rest, h3, h4⟩ := lost_close c _ _ (h2 hf).1
      rw [he, List.nil_append, written_flatten] at h4
      exact absurd (List.append_right_eq_self.1 h4) h3
  · by_cases hf : Fits c 0 0 os
    · rw [hok hf]; exact List.prefix_rfl
    · obtain ⟨rest, -, h4⟩ := lost_close c _ _ (h2 hf).1
      rw [List.nil_append, written_flatten] at h4
      exact ⟨rest, h4⟩

/-- Non-vacuity: with blocks of four bytes and buffers of eight, a flush at three bytes is harmless if at most eight
bytes follow, and is not if nine do. -/
example : Fits ⟨8, true, 4, true⟩ 0 0 [.write [1, 2, 3], .flush, .write [4, 5, 6, 7], .write [8, 9, 10, 11]] ∧
    ¬ Fits ⟨8, true, 4, true⟩ 0 0 [.write [1, 2, 3], .flush, .write [4, 5, 6, 7], .write [8, 9, 10, 11, 12]] := by
  simp [Fits, Through]

/-! ### The recorder -/

/-- The calls of one stretch: records and a flush. -/
def calls (bs : List (List Nat)) : List Op := bs.map .write ++ [.flush]

theorem ops_append (c : Cfg) : ∀ (os os' : List Op) (w : W), (ops c w (os ++ os')).1 = (ops c (ops c w os).1 os').1
  | [], os', w => rfl
  | .write b :: os, os', w => by
    simp only [List.cons_append, ops]; exact ops_append c os os' _
  | .flush :: os, os', w => by
    simp only [List.cons_append, ops]; exact ops_append c os os' _

theorem sync_isOpen (c : Cfg) (w : W) : (File.sync c w).isOpen = w.isOpen := by
  unfold File.sync fdWrite
  by_cases h : w.direct = true ∧ (w.buf.length % c.align ≠ 0 ∨ w.off % c.align ≠ 0)
  · rw [if_pos h]
  · rw [if_neg h]

theorem putc_isOpen (c : Cfg) (w : W) (x : Nat) : (putc c w x).isOpen = w.isOpen := by
  unfold putc
  by_cases h0 : c.cap = 0
  · rw [if_pos h0]
    unfold fdWrite
    by_cases h : w.direct = true ∧ (([x] : List Nat).length % c.align ≠ 0 ∨ w.off % c.align ≠ 0)
    · rw [if_pos h]
    · rw [if_neg h]
  · rw [if_neg h0]
    have key : (if w.buf.length = c.cap then File.sync c w else w).isOpen = w.isOpen := by
      split
      · exact sync_isOpen c w
      · rfl
    generalize (if w.buf.length = c.cap then File.sync c w else w) = w1 at key ⊢
    simp only
    split
    · exact key
    · exact key

theorem puts_isOpen (c : Cfg) : ∀ (b : List Nat) (w : W), (puts c w b).isOpen = w.isOpen
  | [], w => rfl
  | x :: xs, w => by
    unfold puts
    split
    · rfl
    · rw [puts_isOpen c xs, putc_isOpen]

theorem flush_isOpen (c : Cfg) (w : W) : (flush c w).isOpen = w.isOpen := by
  unfold flush
  simp only
  split
  · rfl
  · exact sync_isOpen c _

theorem write_isOpen (c : Cfg) (w : W) (b : List Nat) : (write c w b).1.isOpen = w.isOpen := by
  unfold write
  split
  · rfl
  · exact puts_isOpen c b w

theorem ops_isOpen (c : Cfg) : ∀ (os : List Op) (w : W), (ops c w os).1.isOpen = w.isOpen
  | [], w => rfl
  | .write b :: os, w => by simp only [ops]; rw [ops_isOpen c os, write_isOpen]
  | .flush :: os, w => by simp only [ops]; rw [ops_isOpen c os, flush_isOpen]

/-- A refused write and all that follow leave the writer as it is. -/
theorem writes_refused (c : Cfg) : ∀ (bs : List (List Nat)) (w : W), w.bad = true → (ops c w (bs.map .write)).1 = w
  | [], w, _ => rfl
  | b :: bs, w, h => by
    have e : (write c w b).1 = w := by
      unfold write; split
      · rfl
      · exact puts_bad c w b h
    simp only [List.map_cons, ops, e]
    exact writes_refused c bs w h

theorem loop_ops (c : Cfg) : ∀ (ps : List Pop) (r : Rec), r.w.isOpen = true →
    (loop c r ps).1.w = (ops c r.w ((payloads ps).map .write)).1
  | [], r, _ => rfl
  | .timeout :: ps, r, h => by
    rw [loop]; exact loop_ops c ps r h
  | .got b :: ps, r, h => by
    have e : payloads (.got b :: ps) = b :: payloads ps := rfl
    rw [e, loop]
    simp only [List.map_cons, ops]
    have hw := write_open c r.w b h
    by_cases hb : (puts c r.w b).bad = true
    · have h2 : (write c r.w b).2 = false := by rw [hw, hb]; rfl
      have h1 : (write c r.w b).1 = puts c r.w b := by rw [hw]
      rw [h2]
      simp only [Bool.false_eq_true, if_false]
      rw [writes_refused c _ _ (by rw [h1]; exact hb)]
    · have h2 : (write c r.w b).2 = true := by rw [hw]; simp [hb]
      rw [h2]
      simp only [if_true]
      have ho : (write c r.w b).1.isOpen = true := by rw [hw]; simp only [puts_isOpen]; exact h
      exact loop_ops c ps ⟨(write c r.w b).1, r.total + 1⟩ ho

theorem runs_ops (c : Cfg) : ∀ (rs : List (List Pop)) (r : Rec), r.w.isOpen = true →
    (runs c r rs).w = (ops c r.w ((rs.map payloads).flatMap calls)).1
  | [], r, _ => rfl
  | ps :: rs, r, h => by
    have h1 : (runOnce c r ps).1.w = (ops c r.w (calls (payloads ps))).1 := by
      unfold runOnce calls
      rw [ops_append, ← loop_ops c ps ⟨r.w, 0⟩ h]
      rfl
    rw [runs, List.map_cons, List.flatMap_cons, ops_append, ← h1]
    exact runs_ops c rs _ (by rw [h1, ops_isOpen]; exact h)

theorem written_writes : ∀ (bs : List (List Nat)) (os : List Op), written (bs.map .write ++ os) = bs.flatten ++ written os
  | [], os => rfl
  | b :: bs, os => by simp [written, written_writes bs os]

theorem written_calls : ∀ (ss : List (List (List Nat))), written (ss.flatMap calls) = ss.flatten.flatten
  | [] => rfl
  | bs :: ss => by
    rw [List.flatMap_cons, calls, List.append_assoc, written_writes, List.flatten_cons, List.flatten_append]
    show _ ++ written (ss.flatMap calls) = _
    rw [written_calls ss]

theorem fits_writes (c : Cfg) : ∀ (bs : List (List Nat)) (os : List Op) (n k : Nat), Through c n k →
    (Fits c n k (bs.map .write ++ .flush :: os) ↔ Through c n (k + bs.flatten.length) ∧ Fits c (n + (k + bs.flatten.length)) 0 os)
  | [], os, n, k, h => by simp [Fits, h]
  | b :: bs, os, n, k, h => by
    simp only [List.map_cons, List.cons_append, Fits, List.flatten_cons, List.length_append]
    constructor
    · rintro ⟨h1, h2⟩
      have := (fits_writes c bs os n (k + b.length) h1).1 h2
      rwa [Nat.add_assoc k] at this
    · intro h1
      have ht : Through c n (k + b.length) := h1.1.mono (by omega)
      refine ⟨ht, (fits_writes c bs os n (k + b.length) ht).2 ?_⟩
      rwa [Nat.add_assoc k]

theorem fits_calls (c : Cfg) : ∀ (ss : List (List (List Nat))) (n : Nat),
    Fits c n 0 (ss.flatMap calls) ↔ AllThrough c n (ss.map (·.flatten.length))
  | [], n => Iff.rfl
  | bs :: ss, n => by
    rw [List.flatMap_cons, calls, List.append_assoc]
    have := fits_writes c bs (ss.flatMap calls) n 0 (Or.inl (Nat.zero_le _))
    rw [Nat.zero_add] at this
    exact this.trans (and_congr Iff.rfl (fits_calls c ss _))

/-- After a flush nothing is left in the buffer of a healthy writer. -/
theorem ops_flushed (c : Cfg) (hd : c.useDirect = true) (hc : 0 < c.cap) : ∀ (ss : List (List (List Nat))) (data : List Nat)
    (n : Nat) (w : W), Ok c data n 0 w → w.file = data → AllThrough c n (ss.map (·.flatten.length)) →
    (ops c w (ss.flatMap calls)).1.file = data ++ ss.flatten.flatten
  | [], data, n, w, _, hf, _ => by simpa [ops] using hf
  | bs :: ss, data, n, w, h, _, ht => by
    have hfit : Fits c n 0 (bs.map .write) := by
      have := (fits_writes c bs [] n 0 (Or.inl (Nat.zero_le _))).2 ⟨by rw [Nat.zero_add]; exact ht.1, trivial⟩
      have key : ∀ (os : List Op) (n k : Nat), Fits c n k (os ++ [.flush]) → Fits c n k os := by
        intro os
        induction os with
        | nil => intros; trivial
        | cons o os ih =>
          intro n k h
          cases o with
          | write b => exact ⟨h.1, ih _ _ h.2⟩
          | flush => exact ih _ _ h
      exact key _ _ _ this
    obtain ⟨⟨n', k', h1⟩, -⟩ := (ops_cases c hd hc _ data n 0 w h).1 hfit
    have e : written (bs.map Op.write) = bs.flatten := by
      have := written_writes bs []
      simpa [written] using this
    rw [e] at h1
    have h2 := flush_ok c hd _ n' k' _ h1
    have hw : (ops c w (calls bs)).1 = flush c (ops c w (bs.map .write)).1 := by
      unfold calls; rw [ops_append]; rfl
    have hn : n' + k' = n + bs.flatten.length := by
      rw [← h1.size, List.length_append, h.size]; rfl
    rw [List.flatMap_cons, ops_append, ops_flushed c hd hc ss (data ++ bs.flatten) (n + bs.flatten.length) _
      (by rw [hw, ← hn]; exact h2.1) (by rw [hw]; exact h2.2) ht.2, List.flatten_cons, List.flatten_append,
      List.append_assoc]

/-- Records written in stretches with a flush after each: the file after the last flush. -/
theorem stretches_exact (c : Cfg) (hd : c.useDirect = true) (hc : 0 < c.cap) (ss : List (List (List Nat))) :
    ((ops c (openW c []) (ss.flatMap calls)).1.file = ss.flatten.flatten ↔ AllThrough c 0 (ss.map (·.flatten.length))) ∧
    (ops c (openW c []) (ss.flatMap calls)).1.file <+: ss.flatten.flatten := by
  have hok := ops_flushed c hd hc ss [] 0 _ (open_ok c hd) rfl
  rw [List.nil_append] at hok
  have hbad : ¬ AllThrough c 0 (ss.map (·.flatten.length)) → ∃ rest, rest ≠ [] ∧
      (ops c (openW c []) (ss.flatMap calls)).1.file ++ rest = ss.flatten.flatten := by
    intro hf
    have hnf : ¬ Fits c 0 0 (ss.flatMap calls) := fun h => hf ((fits_calls c ss 0).1 h)
    have hl := ((ops_cases c hd hc _ [] 0 0 _ (open_ok c hd)).2 hnf).1
    rw [written_calls, List.nil_append] at hl
    obtain ⟨rest, h3, h4⟩ := hl.less
    refine ⟨(ops c (openW c []) (ss.flatMap calls)).1.buf ++ rest, by simp [h3], ?_⟩
    rw [← List.append_assoc]; exact h4
  refine ⟨⟨?_, hok⟩, ?_⟩
  · intro he
    by_cases hf : AllThrough c 0 (ss.map (·.flatten.length))
    · exact hf
    · obtain ⟨rest, h3, h4⟩ := hbad hf
      rw [he] at h4
      exact absurd (List.append_right_eq_self.1 h4) h3
  · by_cases hf : AllThrough c 0 (ss.map (·.flatten.length))
    · rw [hok hf]; exact List.prefix_rfl
    · obtain ⟨rest, -, h4⟩ := hbad hf
      exact ⟨rest, h4⟩

/-- **C53 (O_DIRECT, exact)** With O_DIRECT and a buffer, over any number of runs between two configurations, the recorded
file holds exactly the payloads received, in order, after the last run if and only if every run either fits into
the buffer or begins on a block boundary of the file with buffers of whole blocks. So a recorder whose runs all
fit into the buffer loses nothing, and a run longer than the buffer after one that ended inside a block loses
data. In every case the file holds a beginning of what was received, and nothing else. -/
theorem C53_direct_exact (c : Cfg) (hd : c.useDirect = true) (hc : 0 < c.cap) (rs : List (List Pop)) :
    ((runs c (conf c) rs).w.file = (rs.flatMap payloads).flatten ↔
      AllThrough c 0 (rs.map fun ps => (payloads ps).flatten.length)) ∧
    (runs c (conf c) rs).w.file <+: (rs.flatMap payloads).flatten := by
  have h := stretches_exact c hd hc (rs.map payloads)
  rw [List.map_map, ← List.flatMap_def] at h
  rw [runs_ops c rs (conf c) rfl]
  exact h

/-- Non-vacuity: runs of three, eight and eight bytes go through with blocks of four and buffers of eight; runs
of three and nine do not. -/
example : AllThrough ⟨8, true, 4, true⟩ 0 ([[Pop.got [1, 2, 3]], [.timeout, .got [1, 2, 3, 4, 5, 6, 7, 8]],
      [.got [1, 2, 3, 4, 5, 6, 7, 8]]].map fun ps => (payloads ps).flatten.length) ∧
    ¬ AllThrough ⟨8, true, 4, true⟩ 0 ([[Pop.got [1, 2, 3]], [.got [1, 2, 3, 4, 5], .got [6, 7, 8, 9]]].map
      fun ps => (payloads ps).flatten.length) := by
  simp [AllThrough, Through, payloads]

end Verif.File
