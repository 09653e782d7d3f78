import Verif.CompModel
import Verif.FileProps
/- Property C122: compressed recordings. -/
namespace Verif.Comp

open Verif.File

/-! ### Specification -/

/-- A compressor is told something: what it then holds and what it has put out so far. -/
def told {σ : Type} (K : Codec σ) (r : σ × List Nat) : Ev → σ × List Nat
  | .byte x => ((K.feed r.1 x).1, r.2 ++ (K.feed r.1 x).2)
  | .pass => ((K.pass r.1).1, r.2 ++ (K.pass r.1).2)

/-- What a compressor holds and has put out after a history. -/
def after {σ : Type} (K : Codec σ) (h : List Ev) : σ × List Nat := h.foldl (told K) (K.init, [])

/-- The characters of a history. -/
def chars : List Ev → List Nat
  | [] => []
  | .byte x :: h => x :: chars h
  | .pass :: h => chars h

/-- The library does its work: whatever was fed, with flushes anywhere, is what the decompressor makes of the output. -/
def Lawful {σ : Type} (K : Codec σ) : Prop := ∀ h, K.dec ((after K h).2 ++ K.finish (after K h).1) = chars h

/-- The buffer and the flags fit: no O_DIRECT, or aligned buffers and no flush that reaches the device. -/
def Safe {σ : Type} (K : Codec σ) (c : Cfg) (flushes : Prop) : Prop :=
  c.useDirect = false ∨ (0 < c.cap ∧ c.cap % c.align = 0 ∧ (K.deep = false ∨ ¬ flushes))

/-- The payloads of a run. -/
def got : List Pop → List (List Nat)
  | [] => []
  | .got b :: ps => b :: got ps
  | .timeout :: ps => got ps

/-- All bytes of the payloads of the runs of a sequence of commands. -/
def recorded : List Cmd → List Nat
  | [] => []
  | .conf _ _ _ :: cs => recorded cs
  | .run ps :: cs => (got ps).flatten ++ recorded cs

/-- No configuration with this name among the commands. -/
def NoConf (n : Nat) (cs : List Cmd) : Prop := ∀ m a c, Cmd.conf m a c ∈ cs → m ≠ n

/-- Only runs. -/
def OnlyRuns (cs : List Cmd) : Prop := ∀ m a c, Cmd.conf m a c ∉ cs

/-! ### Compressors -/

theorem after_append {σ : Type} (K : Codec σ) (h : List Ev) (e : Ev) :
    after K (h ++ [e]) = told K (after K h) e := by
  simp [after, List.foldl_append]

theorem chars_append (h g : List Ev) : chars (h ++ g) = chars h ++ chars g := by
  induction h with
  | nil => rfl
  | cons e h ih => cases e <;> simp [chars, ih]

theorem noCodec_lawful : Lawful noCodec := by
  intro h
  have : ∀ h : List Ev, (after noCodec h).2 = chars h := by
    intro h
    suffices ∀ (h : List Ev) (r : Unit × List Nat), (h.foldl (told noCodec) r).2 = r.2 ++ chars h by
      have h1 := this h (noCodec.init, [])
      rw [List.nil_append] at h1; exact h1
    intro h
    induction h with
    | nil => intro r; simp [chars]
    | cons e h ih =>
      intro r
      rw [List.foldl_cons, ih]
      cases e <;> simp [chars, noCodec, told]
  show (after noCodec h).2 ++ [] = chars h
  rw [this, List.append_nil]

/-! ### The writer -/

/-- An open, healthy writer on a file that was new, after the history `h`. -/
structure CInv {σ : Type} (K : Codec σ) (c : Cfg) (h : List Ev) (s : CW σ) : Prop where
  enc : s.enc = (after K h).1
  inv : Inv c [] (after K h).2 s.w
  dir : s.w.direct = c.useDirect
  al : c.useDirect = true → 0 < c.cap ∧ c.cap % c.align = 0 ∧ s.w.off % c.align = 0

/-- An aligned offset stays aligned when the stream empties full buffers, O_DIRECT or not. -/
theorem putc_off (c : Cfg) (old data : List Nat) (w : W) (x : Nat) (h : Inv c old data w) (hc : 0 < c.cap)
    (ha : c.cap % c.align = 0) (ho : w.off % c.align = 0) : (putc c w x).off % c.align = 0 := by
  have hne : ¬ c.cap = 0 := by omega
  by_cases hf : w.buf.length = c.cap
  · have hs := sync_ok c old data w h (by intro _; rw [hf]; exact ha)
    have hl : data.length = w.off + c.cap := by
      rw [← hf, h.buf]; have := h.le; simp; omega
    simp only [putc, hne, hf, if_true, if_false, hs, h.good, Bool.false_eq_true]
    rw [hl, Nat.add_mod, ho, ha]; simp
  · simp [putc, hne, hf, h.good, ho]

theorem puts_off (c : Cfg) (old : List Nat) (hc : 0 < c.cap) (ha : c.cap % c.align = 0) :
    ∀ (b data : List Nat) (w : W), Inv c old data w → w.off % c.align = 0 → (puts c w b).off % c.align = 0
  | [], _, w, _, ho => by simpa [puts] using ho
  | x :: xs, data, w, h, ho => by
    simp only [puts, h.good, Bool.false_eq_true, if_false]
    exact puts_off c old hc ha xs (data ++ [x]) _ (putc_inv c old data w x h).1 (putc_off c old data w x h hc ha ho)

theorem feed1_inv {σ : Type} (K : Codec σ) (c : Cfg) (h : List Ev) (s : CW σ) (x : Nat) (hi : CInv K c h s) :
    CInv K c (h ++ [.byte x]) (feed1 K c s x) := by
  have e := after_append K h (.byte x)
  simp only [told] at e
  obtain ⟨h1, h2⟩ := puts_inv c [] (K.feed s.enc x).2 _ s.w hi.inv
  refine ⟨?_, ?_, ?_, ?_⟩
  · rw [e]; simp [feed1, hi.enc]
  · rw [e]; simpa [feed1, hi.enc] using h1
  · simpa [feed1] using h2.trans hi.dir
  · intro hd
    obtain ⟨a1, a2, a3⟩ := hi.al hd
    exact ⟨a1, a2, puts_off c [] a1 a2 _ _ _ hi.inv a3⟩

theorem feeds_inv {σ : Type} (K : Codec σ) (c : Cfg) : ∀ (b : List Nat) (h : List Ev) (s : CW σ), CInv K c h s →
    CInv K c (h ++ b.map .byte) (feeds K c s b)
  | [], h, s, hi => by simpa [feeds] using hi
  | x :: xs, h, s, hi => by
    simp only [feeds, hi.inv.good, Bool.false_eq_true, if_false]
    have := feeds_inv K c xs _ _ (feed1_inv K c h s x hi)
    simpa using this

theorem write_inv {σ : Type} (K : Codec σ) (c : Cfg) (b : List Nat) (h : List Ev) (s : CW σ) (hi : CInv K c h s) :
    CInv K c (h ++ b.map .byte) (write K c s b).1 ∧ (write K c s b).2 = true := by
  have h1 := feeds_inv K c b h s hi
  have e : write K c s b = (feeds K c s b, !(feeds K c s b).w.bad) := by simp [write, hi.inv.opn]
  rw [e]
  exact ⟨h1, by simp [h1.inv.good]⟩

theorem chars_map (b : List Nat) : chars (b.map .byte) = b := by
  induction b with
  | nil => rfl
  | cons x xs ih => simp [chars, ih]

/-- The writer with O_DIRECT taken off. -/
theorem undirect {c : Cfg} {old data : List Nat} {w : W} (h : Inv c old data w) :
    Inv c old data { w with direct := false } :=
  ⟨h.opn, h.good, h.le, h.file, h.buf, h.len, by simp⟩

theorem flush_eq {σ : Type} (K : Codec σ) (c : Cfg) (s : CW σ) (hb : s.w.bad = false) :
    flush K c s = ⟨(K.pass s.enc).1, { (if K.deep then sync c (puts c { s.w with direct := false } (K.pass s.enc).2)
      else puts c { s.w with direct := false } (K.pass s.enc).2) with direct := c.useDirect }⟩ := by
  have hn : ¬ (s.w.bad = true ∧ c.syncBad = false) := by simp [hb]
  have e : flush K c s = ⟨(if s.w.bad = true ∧ c.syncBad = false then (⟨s.enc, { s.w with direct := false }⟩ : CW σ) else
      chainFlush K c ⟨s.enc, { s.w with direct := false }⟩).enc,
      { (if s.w.bad = true ∧ c.syncBad = false then (⟨s.enc, { s.w with direct := false }⟩ : CW σ) else
      chainFlush K c ⟨s.enc, { s.w with direct := false }⟩).w with direct := c.useDirect }⟩ := rfl
  rw [e, if_neg hn]
  rfl

theorem flush_inv {σ : Type} (K : Codec σ) (c : Cfg) (h : List Ev) (s : CW σ) (hi : CInv K c h s)
    (hs : Safe K c True) : CInv K c (h ++ [.pass]) (flush K c s) := by
  have e := after_append K h .pass
  simp only [told] at e
  obtain ⟨h1, h2⟩ := puts_inv c [] (K.pass s.enc).2 _ _ (undirect hi.inv)
  rw [flush_eq K c s hi.inv.good]
  rcases hs with hs | ⟨a1, a2, a3⟩
  · -- no O_DIRECT
    refine ⟨by rw [e, hi.enc], ?_, rfl, by simp [hs]⟩
    rw [e]
    simp only [hi.enc] at h1 ⊢
    by_cases hd : K.deep = true
    · simp only [hd, if_true]
      have hso := sync_ok c [] _ _ h1 (by rw [show (puts c _ _).direct = false from by rw [← hi.enc]; exact h2]; simp)
      rw [hso]
      have := synced_inv c [] _ _ h1 (by
        rw [show (puts c _ _).direct = false from by rw [← hi.enc]; exact h2]; simp)
      exact ⟨this.opn, this.good, this.le, this.file, this.buf, this.len, by simp [hs]⟩
    · simp only [hd, Bool.false_eq_true, if_false]
      exact ⟨h1.opn, h1.good, h1.le, h1.file, h1.buf, h1.len, by simp [hs]⟩
  · have hd : K.deep = false := by simpa using a3
    simp only [hd, Bool.false_eq_true, if_false]
    have ho : c.useDirect = true →
        (puts c { s.w with direct := false } (K.pass s.enc).2).off % c.align = 0 := by
      intro hu
      exact puts_off c [] a1 a2 _ _ _ (undirect hi.inv) (hi.al hu).2.2
    refine ⟨by rw [e, hi.enc], ?_, rfl, ?_⟩
    · rw [e, ← hi.enc]
      exact ⟨h1.opn, h1.good, h1.le, h1.file, h1.buf, h1.len, fun hu => ⟨a1, a2, ho hu⟩⟩
    · intro hu; exact ⟨a1, a2, ho hu⟩

/-- Closing: the file is the whole output. -/
theorem close_file {σ : Type} (K : Codec σ) (c : Cfg) (h : List Ev) (s : CW σ) (hi : CInv K c h s) :
    (close K c s).w.file = (after K h).2 ++ K.finish (after K h).1 ∧ (close K c s).w.isOpen = false := by
  have hb : ({ s.w with direct := false, bad := false } : W) = { s.w with direct := false } := by
    have := hi.inv.good
    cases hw : s.w; rw [hw] at this; simp at this; simp [this]
  obtain ⟨h1, h2⟩ := puts_inv c [] (K.finish s.enc) _ _ (undirect hi.inv)
  have hso := sync_ok c [] _ _ h1 (by rw [h2]; simp)
  have e : close K c s = ⟨K.init, { sync c (puts c { s.w with direct := false, bad := false } (K.finish s.enc)) with
      isOpen := false, bad := false }⟩ := rfl
  rw [e, hb, hso]
  refine ⟨?_, rfl⟩
  simp [overlay, hi.enc]

theorem open_cinv {σ : Type} (K : Codec σ) (c : Cfg) (fl : Prop) (hs : Safe K c fl) : CInv K c [] (openC K c []) := by
  have ho : c.useDirect = false ∨ (0 < c.cap ∧ c.cap % c.align = 0) := by
    rcases hs with h | h
    · exact Or.inl h
    · exact Or.inr ⟨h.1, h.2.1⟩
  refine ⟨rfl, open_inv c [] ho, rfl, ?_⟩
  intro hd
  rcases ho with h | h
  · rw [h] at hd; cases hd
  · exact ⟨h.1, h.2, by simp [openC, openW]⟩

theorem ops_cinv {σ : Type} (K : Codec σ) (c : Cfg) : ∀ (os : List Op) (h : List Ev) (s : CW σ), CInv K c h s →
    Safe K c (Op.flush ∈ os) →
    (∃ g, CInv K c g (ops K c s os).1 ∧ chars g = chars h ++ (records os).flatten) ∧
    (∀ b ∈ (ops K c s os).2, b = true)
  | [], h, s, hi, _ => by
    refine ⟨⟨h, hi, by simp [records]⟩, by simp [ops]⟩
  | .write b :: os, h, s, hi, hs => by
    obtain ⟨h1, h2⟩ := write_inv K c b h s hi
    obtain ⟨⟨g, g1, g2⟩, g3⟩ := ops_cinv K c os _ _ h1 (by
      rcases hs with hs | ⟨a1, a2, a3⟩
      · exact Or.inl hs
      · refine Or.inr ⟨a1, a2, a3.imp id (fun hn hm => hn (by simp [hm]))⟩)
    refine ⟨⟨g, g1, ?_⟩, ?_⟩
    · rw [g2, chars_append, chars_map]; simp [records]
    · intro x hx
      simp only [ops] at hx
      rcases List.mem_cons.1 hx with e | hx
      · rw [e]; exact h2
      · exact g3 x hx
  | .flush :: os, h, s, hi, hs => by
    have h1 := flush_inv K c h s hi (by
      rcases hs with hs | ⟨a1, a2, a3⟩
      · exact Or.inl hs
      · refine Or.inr ⟨a1, a2, a3.imp id (fun hn => absurd (by simp) hn)⟩)
    obtain ⟨⟨g, g1, g2⟩, g3⟩ := ops_cinv K c os _ _ h1 (by
      rcases hs with hs | ⟨a1, a2, a3⟩
      · exact Or.inl hs
      · refine Or.inr ⟨a1, a2, a3.imp id (fun hn hm => hn (by simp [hm]))⟩)
    refine ⟨⟨g, g1, ?_⟩, g3⟩
    rw [g2, chars_append]; simp [chars, records]

/-- **C122 (partial, the writer and the reader)** With any compressor that does its work: writing any records into a new
file, with flushes anywhere, and closing: all writes are reported successful, and reading records of the common size
`k` with the same algorithm gives back exactly the written records in order and then fails. Missing: O_DIRECT with
flushes that reach the device, or with a buffer that is no positive multiple of the alignment (see C45). -/
theorem C122_round_trip_partial {σ : Type} (K : Codec σ) (hK : Lawful K) (c : Cfg) (os : List Op)
    (hs : Safe K c (Op.flush ∈ os)) :
    (∀ b ∈ (ops K c (openC K c []) os).2, b = true) ∧
    (∀ k, 0 < k → (∀ r ∈ records os, r.length = k) →
      reads k ((records os).length + 1) (openR K (close K c (ops K c (openC K c []) os).1).w.file) =
        (records os).map some ++ [none]) ∧
    (∀ b, write K c (close K c (ops K c (openC K c []) os).1) b = (close K c (ops K c (openC K c []) os).1, false)) := by
  obtain ⟨⟨g, g1, g2⟩, g3⟩ := ops_cinv K c os [] _ (open_cinv K c _ hs) hs
  obtain ⟨h1, h2⟩ := close_file K c g _ g1
  refine ⟨g3, ?_, ?_⟩
  · intro k hk hr
    have e : openR K (close K c (ops K c (openC K c []) os).1).w.file = ⟨true, (records os).flatten⟩ := by
      rw [openR, h1, hK g, g2]; simp [chars]
    rw [e]
    exact reads_records k hk _ hr
  · intro b; simp [write, h2]

/-! ### Without a compressor the chain is that of C45 -/

theorem feeds_none (c : Cfg) : ∀ (b : List Nat) (w : W), feeds noCodec c ⟨(), w⟩ b = ⟨(), puts c w b⟩
  | [], w => rfl
  | x :: xs, w => by
    by_cases hb : w.bad = true
    · simp [feeds, puts, hb]
    · have e : feed1 noCodec c ⟨(), w⟩ x = ⟨(), putc c w x⟩ := by
        simp [feed1, noCodec, puts, hb]
      simp only [feeds, hb, Bool.false_eq_true, if_false, e, puts]
      exact feeds_none c xs _

/-- **C122 (no compression)** With "None" the chain behaves, call by call, as the writer of C45. -/
theorem C122_none (c : Cfg) (os : List Op) (w : W) :
    (ops noCodec c ⟨(), w⟩ os).1.w = (File.ops c w os).1 ∧ (ops noCodec c ⟨(), w⟩ os).2 = (File.ops c w os).2 ∧
    (close noCodec c ⟨(), w⟩).w = File.close c w := by
  have hw : ∀ (w : W) (b : List Nat), write noCodec c ⟨(), w⟩ b = (⟨(), (File.write c w b).1⟩, (File.write c w b).2) := by
    intro w b
    by_cases ho : w.isOpen = false
    · simp [write, File.write, ho]
    · simp [write, File.write, ho, feeds_none]
  have hf : ∀ w : W, flush noCodec c ⟨(), w⟩ = ⟨(), File.flush c w⟩ := by
    intro w
    by_cases hb : w.bad = true ∧ c.syncBad = false
    · simp [flush, File.flush, hb]
    · simp [flush, File.flush, hb, chainFlush, noCodec, puts]
  have ho : ∀ (os : List Op) (w : W), ops noCodec c ⟨(), w⟩ os = (⟨(), (File.ops c w os).1⟩, (File.ops c w os).2) := by
    intro os
    induction os with
    | nil => intro w; rfl
    | cons o os ih =>
      intro w
      cases o with
      | write b => simp only [ops, File.ops, hw, ih]
      | flush => simp only [ops, File.ops, hf, ih]
  refine ⟨by rw [ho], by rw [ho], ?_⟩
  have e : close noCodec c ⟨(), w⟩ = ⟨(), { sync c { w with direct := false, bad := false } with
    isOpen := false, bad := false }⟩ := rfl
  rw [e]
  show { sync c { w with direct := false, bad := false } with isOpen := false, bad := false } =
    { sync c { w with direct := false } with isOpen := false, bad := false }
  simp [sync, fdWrite]

/-! ### Modules that record -/

/-- The disk is in order: names have files of their own, and a writer has open a file that was created. -/
structure Disk {σ : Type} (s : Mod σ) : Prop where
  lt : ∀ n i, s.dir n = some i → i < s.next
  inj : ∀ n m i, s.dir n = some i → s.dir m = some i → n = m

theorem unlink_disk {σ : Type} (s : Mod σ) (n : Nat) (h : Disk s) : Disk (unlink s n) := by
  refine ⟨?_, ?_⟩
  · intro m i hm
    simp only [unlink] at hm ⊢
    split at hm
    · cases hm
    · exact h.lt m i hm
  · intro m k i hm hk
    simp only [unlink] at hm hk
    split at hm
    · cases hm
    · split at hk
      · cases hk
      · exact h.inj m k i hm hk

theorem shut_dir {σ : Type} (K : Alg → Codec σ) (s : Mod σ) :
    (shut K s).dir = s.dir ∧ (shut K s).next = s.next ∧ (shut K s).ino = s.ino := by
  unfold shut; split <;> exact ⟨rfl, rfl, rfl⟩

theorem shut_disk {σ : Type} (K : Alg → Codec σ) (s : Mod σ) (h : Disk s) : Disk (shut K s) := by
  obtain ⟨e1, e2, -⟩ := shut_dir K s
  exact ⟨by rw [e1, e2]; exact h.lt, by rw [e1]; exact h.inj⟩

/-- A configuration of a recorder, written out: the name is new, the file is new. -/
theorem confRec_eq {σ : Type} (K : Alg → Codec σ) (s : Mod σ) (n : Nat) (a : Alg) (c : Cfg) :
    confRec K s n a c = ⟨fun m => if m = n then some s.next else s.dir m, (shut K s).data, s.next + 1, a, c, s.next,
      openC (K a) c [], s.total⟩ := by
  have e1 : (shut K (unlink s n)).dir n = Option.none := by
    rw [(shut_dir K _).1]; simp [unlink]
  unfold confRec create
  rw [e1]
  simp only
  have e2 : (shut K (unlink s n)).data = (shut K s).data := by
    by_cases ho : s.cw.w.isOpen = true
    · simp [shut, unlink, ho]; rfl
    · simp [shut, unlink, ho]
  have e3 : (shut K (unlink s n)).total = s.total := by
    by_cases ho : s.cw.w.isOpen = true <;> simp [shut, unlink, ho]
  rw [e2, e3, (shut_dir K _).2.1, (shut_dir K _).1]
  congr 1
  funext m
  by_cases hm : m = n <;> simp [hm, unlink]

theorem confRec_disk {σ : Type} (K : Alg → Codec σ) (s : Mod σ) (n : Nat) (a : Alg) (c : Cfg) (h : Disk s) :
    Disk (confRec K s n a c) := by
  rw [confRec_eq]
  refine ⟨?_, ?_⟩
  · intro m i hm
    simp only at hm ⊢
    split at hm
    · injection hm with hm; omega
    · have := h.lt m i hm; omega
  · intro m k i hm hk
    simp only at hm hk
    split at hm
    · rename_i e1
      split at hk
      · rename_i e2; rw [e1, e2]
      · injection hm with hm; have := h.lt k i hk; omega
    · split at hk
      · injection hk with hk; have := h.lt m i hm; omega
      · exact h.inj m k i hm hk

theorem step_disk {σ : Type} (K : Alg → Codec σ) (link : Bool) (s : Mod σ) (x : Cmd) (h : Disk s) :
    Disk (step K link s x) := by
  cases x with
  | conf n a c =>
    simp only [step, confLink]
    split
    · split
      · exact h
      · exact confRec_disk K s n a c h
    · exact confRec_disk K s n a c h
  | run ps => exact ⟨h.lt, h.inj⟩

theorem exec_disk {σ : Type} (K : Alg → Codec σ) (link : Bool) (cs : List Cmd) (s : Mod σ) (h : Disk s) :
    Disk (exec K link s cs) := by
  induction cs generalizing s with
  | nil => exact h
  | cons x cs ih => exact ih _ (step_disk K link s x h)

theorem fresh_disk {σ : Type} (K : Alg → Codec σ) : Disk (fresh K) :=
  ⟨by intro n i h; simp [fresh] at h, by intro n m i h; simp [fresh] at h⟩

/-- Whether the writer is open does not change while writing. -/
theorem sync_open (c : Cfg) (w : W) : (sync c w).isOpen = w.isOpen := by
  unfold sync fdWrite; split <;> rename_i h
  · rfl
  · split at h
    · cases h
    · injection h with h; rw [← h]

theorem putc_open (c : Cfg) (w : W) (x : Nat) : (putc c w x).isOpen = w.isOpen := by
  unfold putc
  by_cases hc : c.cap = 0
  · rw [if_pos hc]
    unfold fdWrite; split <;> rename_i h
    · rfl
    · split at h
      · cases h
      · injection h with h; rw [← h]
  · rw [if_neg hc]
    by_cases hf : w.buf.length = c.cap
    · simp only [hf, if_true]
      split <;> simp [sync_open]
    · simp only [hf, if_false]
      split <;> rfl

theorem puts_open (c : Cfg) : ∀ (b : List Nat) (w : W), (puts c w b).isOpen = w.isOpen
  | [], w => rfl
  | x :: xs, w => by
    unfold puts; split
    · rfl
    · rw [puts_open c xs, putc_open]

theorem feeds_open {σ : Type} (K : Codec σ) (c : Cfg) : ∀ (b : List Nat) (s : CW σ),
    (feeds K c s b).w.isOpen = s.w.isOpen
  | [], s => rfl
  | x :: xs, s => by
    unfold feeds; split
    · rfl
    · rw [feeds_open K c xs]; exact puts_open c _ _

theorem loop_open {σ : Type} (K : Codec σ) (c : Cfg) : ∀ (ps : List Pop) (s : CW σ) (t : Nat),
    (loop K c s t ps).1.w.isOpen = s.w.isOpen
  | [], s, t => rfl
  | .timeout :: ps, s, t => by rw [loop]; exact loop_open K c ps s t
  | .got b :: ps, s, t => by
    have hw : (write K c s b).1.w.isOpen = s.w.isOpen := by
      unfold write; split
      · rfl
      · exact feeds_open K c b s
    rw [loop]
    split
    · rw [loop_open K c ps]; exact hw
    · exact hw

theorem flush_open {σ : Type} (K : Codec σ) (c : Cfg) (s : CW σ) : (flush K c s).w.isOpen = s.w.isOpen := by
  unfold flush
  simp only
  split
  · rfl
  · simp only [chainFlush]
    split
    · rw [sync_open, puts_open]
    · rw [puts_open]

theorem run_open {σ : Type} (K : Alg → Codec σ) (s : Mod σ) (ps : List Pop) :
    (run K s ps).cw.w.isOpen = s.cw.w.isOpen := by
  simp only [run, flush_open, loop_open]

/-! #### While a file is being recorded -/

/-- The module is recording to the file with this name and these settings, and `d` is what it has written. -/
structure Rec {σ : Type} (K : Alg → Codec σ) (n : Nat) (a : Alg) (c : Cfg) (d : List Nat) (s : Mod σ) : Prop where
  alg : s.alg = a
  cfg : s.cfg = c
  dir : s.dir n = some s.ino
  lt : s.ino < s.next
  cw : ∃ h, CInv (K a) c h s.cw ∧ chars h = d

theorem confRec_rec {σ : Type} (K : Alg → Codec σ) (s : Mod σ) (n : Nat) (a : Alg) (c : Cfg) (fl : Prop)
    (hs : Safe (K a) c fl) : Rec K n a c [] (confRec K s n a c) := by
  rw [confRec_eq]
  exact ⟨rfl, rfl, by simp, by simp, [], open_cinv (K a) c _ hs, rfl⟩

theorem loop_cinv {σ : Type} (K : Codec σ) (c : Cfg) : ∀ (ps : List Pop) (h : List Ev) (s : CW σ) (t : Nat),
    CInv K c h s → (∃ g, CInv K c g (loop K c s t ps).1 ∧ chars g = chars h ++ (got ps).flatten) ∧
      (loop K c s t ps).2 = t + (got ps).length
  | [], h, s, t, hi => ⟨⟨h, hi, by simp [got]⟩, rfl⟩
  | .timeout :: ps, h, s, t, hi => by
    rw [loop]
    exact loop_cinv K c ps h s t hi
  | .got b :: ps, h, s, t, hi => by
    obtain ⟨h1, h2⟩ := write_inv K c b h s hi
    obtain ⟨⟨g, g1, g2⟩, g3⟩ := loop_cinv K c ps _ _ (t + 1) h1
    rw [loop]
    simp only [h2, if_true]
    refine ⟨⟨g, g1, ?_⟩, ?_⟩
    · rw [g2, chars_append, chars_map]; simp [got]
    · rw [g3]; simp [got]; omega

theorem run_rec {σ : Type} (K : Alg → Codec σ) (n : Nat) (a : Alg) (c : Cfg) (d : List Nat) (s : Mod σ)
    (h : Rec K n a c d s) (hs : Safe (K a) c True) (ps : List Pop) :
    Rec K n a c (d ++ (got ps).flatten) (run K s ps) ∧ (run K s ps).total = (got ps).length := by
  obtain ⟨e, hc, hd⟩ := h.cw
  have h1 := h.alg
  have h2 := h.cfg
  obtain ⟨⟨g, g1, g2⟩, g3⟩ := loop_cinv (K a) c ps e s.cw 0 hc
  have h3 := flush_inv (K a) c g _ g1 hs
  refine ⟨⟨h.alg, h.cfg, h.dir, h.lt, g ++ [.pass], ?_, ?_⟩, ?_⟩
  · simp only [run, h1, h2]; exact h3
  · rw [chars_append, g2, hd]; simp [chars]
  · simp only [run, h1, h2]; rw [g3]; omega

theorem exec_rec {σ : Type} (K : Alg → Codec σ) (link : Bool) (n : Nat) (a : Alg) (c : Cfg)
    (hs : Safe (K a) c True) : ∀ (cs : List Cmd) (d : List Nat) (s : Mod σ), Rec K n a c d s →
    (link = true ∨ OnlyRuns cs) → Rec K n a c (d ++ recorded cs) (exec K link s cs)
  | [], d, s, h, _ => by simpa [recorded, exec] using h
  | .run ps :: cs, d, s, h, hl => by
    have h1 := (run_rec K n a c d s h hs ps).1
    have := exec_rec K link n a c hs cs _ _ h1 (hl.imp id (fun hr m b x hm => hr m b x (by simp [hm])))
    simpa [recorded, exec, step, List.append_assoc] using this
  | .conf m b x :: cs, d, s, h, hl => by
    rcases hl with hl | hl
    · obtain ⟨e, hc, -⟩ := h.cw
      have es : step K link s (.conf m b x) = s := by simp [step, hl, confLink, hc.inv.opn]
      have := exec_rec K link n a c hs cs d s h (Or.inl hl)
      simpa [recorded, exec, es] using this
    · exact absurd (by simp) (hl m b x)

/-- A link that was not configured yet: its writer is not open. -/
theorem closed_exec {σ : Type} (K : Alg → Codec σ) (link : Bool) : ∀ (cs : List Cmd) (s : Mod σ),
    s.cw.w.isOpen = false → OnlyRuns cs → (exec K link s cs).cw.w.isOpen = false
  | [], s, h, _ => h
  | .run ps :: cs, s, h, hr => by
    have := closed_exec K link cs (run K s ps) (by rw [run_open]; exact h) (fun m b x hm => hr m b x (by simp [hm]))
    simpa [exec, step] using this
  | .conf m b x :: cs, s, h, hr => absurd (by simp) (hr m b x)

/-- The state in which recording under a name begins. -/
theorem begin_rec {σ : Type} (K : Alg → Codec σ) (link : Bool) (pre : List Cmd) (n : Nat) (a : Alg) (c : Cfg)
    (hs : Safe (K a) c True) (hp : link = false ∨ OnlyRuns pre) (cs : List Cmd) (hc : link = true ∨ OnlyRuns cs) :
    Rec K n a c (recorded cs) (exec K link (fresh K) (pre ++ .conf n a c :: cs)) := by
  have e1 : exec K link (fresh K) (pre ++ .conf n a c :: cs) =
      exec K link (confRec K (exec K link (fresh K) pre) n a c) cs := by
    rw [exec, List.foldl_append, List.foldl_cons]
    congr 1
    cases hl : link with
    | false => rfl
    | true =>
      have := closed_exec K link pre (fresh K) rfl (by
        rcases hp with hp | hp
        · rw [hl] at hp; cases hp
        · exact hp)
      rw [hl] at this
      show confLink K (exec K true (fresh K) pre) n a c = _
      rw [confLink, this]; rfl
  rw [e1]
  simpa using exec_rec K link n a c hs cs [] _ (confRec_rec K _ n a c _ hs) hc

/-- What is under the name while recording, and what is there after closing. -/
theorem rec_files {σ : Type} (K : Alg → Codec σ) (n : Nat) (a : Alg) (c : Cfg) (d : List Nat) (s : Mod σ)
    (h : Rec K n a c d s) : ∃ e : List Ev, chars e = d ∧
      lookup s n = some ((after (K a) e).2.take s.cw.w.off) ∧
      lookup (shut K s) n = some ((after (K a) e).2 ++ (K a).finish (after (K a) e).1) ∧
      (shut K s).data s.ino = (after (K a) e).2 ++ (K a).finish (after (K a) e).1 := by
  obtain ⟨e, hc, hd⟩ := h.cw
  obtain ⟨h1, h2⟩ := close_file (K a) c e s.cw hc
  have es : shut K s = ⟨s.dir, fun i => if i = s.ino then (close (K a) c s.cw).w.file else s.data i, s.next, s.alg, s.cfg,
      s.ino, close (K a) c s.cw, s.total⟩ := by
    simp only [shut, hc.inv.opn, if_true, h.alg, h.cfg]
  refine ⟨e, hd, ?_, ?_, ?_⟩
  · simp only [lookup, h.dir, hc.inv.opn, and_self, if_true]
    rw [hc.inv.file]; simp
  · rw [es]; simp only [lookup, h.dir, h2, h1]; simp
  · rw [es]; simp [h1]

/-! #### After it -/

/-- A finished file under a name: nobody has it open. -/
structure Kept {σ : Type} (n : Nat) (g : List Nat) (i : Nat) (s : Mod σ) : Prop where
  dir : s.dir n = some i
  lt : i < s.next
  data : s.data i = g
  ino : s.cw.w.isOpen = true → s.ino ≠ i

theorem Kept.lookup {σ : Type} {n : Nat} {g : List Nat} {i : Nat} {s : Mod σ} (h : Kept n g i s) :
    lookup s n = some g := by
  simp only [Comp.lookup, h.dir]
  rw [if_neg (by rintro ⟨h1, h2⟩; exact h.ino h1 h2.symm), h.data]

theorem confRec_kept {σ : Type} (K : Alg → Codec σ) (n : Nat) (g : List Nat) (i : Nat) (s : Mod σ) (h : Kept n g i s)
    (m : Nat) (a : Alg) (c : Cfg) (hm : m ≠ n) : Kept n g i (confRec K s m a c) := by
  rw [confRec_eq]
  refine ⟨?_, by have := h.lt; simp only; omega, ?_, ?_⟩
  · simp only; rw [if_neg (Ne.symm hm)]; exact h.dir
  · simp only [shut]
    split
    · rename_i ho
      simp only; rw [if_neg (Ne.symm (h.ino ho))]; exact h.data
    · exact h.data
  · intro _; simp only; have := h.lt; omega

theorem step_kept {σ : Type} (K : Alg → Codec σ) (link : Bool) (n : Nat) (g : List Nat) (i : Nat) (s : Mod σ)
    (h : Kept n g i s) (x : Cmd) (hx : ∀ m a c, x = .conf m a c → m ≠ n) : Kept n g i (step K link s x) := by
  cases x with
  | conf m a c =>
    simp only [step, confLink]
    split
    · split
      · exact h
      · exact confRec_kept K n g i s h m a c (hx m a c rfl)
    · exact confRec_kept K n g i s h m a c (hx m a c rfl)
  | run ps =>
    exact ⟨h.dir, h.lt, h.data, fun ho => h.ino (by rw [step, run_open] at ho; exact ho)⟩

theorem exec_kept {σ : Type} (K : Alg → Codec σ) (link : Bool) (n : Nat) (g : List Nat) (i : Nat) :
    ∀ (cs : List Cmd) (s : Mod σ), Kept n g i s → NoConf n cs → Kept n g i (exec K link s cs)
  | [], s, h, _ => h
  | x :: cs, s, h, hn =>
    exec_kept K link n g i cs _ (step_kept K link n g i s h x (fun m a c e => hn m a c (by simp [e])))
      (fun m a c hm => hn m a c (by simp [hm]))

/-- **C122 (partial, what is recorded)** A recorder (`link = false`) or a link, after any commands `pre` (for a link: before
its first configuration) configured to record to the file `n` with algorithm `a`, then in any number of runs: every
payload is taken (the counter of a run is their number); what is found under the name is the beginning of the
file that is there after the module is destroyed, and that one reads back, with the same algorithm, as exactly all
payloads of all these runs in order. For a link `cs` may hold further configurations: they change nothing.
Missing: O_DIRECT with flushes that reach the device or unaligned buffers. -/
theorem C122_recorded_partial {σ : Type} (K : Alg → Codec σ) (hK : ∀ a, Lawful (K a)) (link : Bool) (pre : List Cmd) (n : Nat)
    (a : Alg) (c : Cfg) (hs : Safe (K a) c True) (hp : link = false ∨ OnlyRuns pre) (cs : List Cmd)
    (hc : link = true ∨ OnlyRuns cs) :
    (∃ f rest, lookup (exec K link (fresh K) (pre ++ .conf n a c :: cs)) n = some f ∧
      lookup (destroy K (exec K link (fresh K) (pre ++ .conf n a c :: cs))) n = some (f ++ rest) ∧
      (K a).dec (f ++ rest) = recorded cs) ∧
    (∀ ps, (exec K link (fresh K) (pre ++ .conf n a c :: (cs ++ [.run ps]))).total = (got ps).length) := by
  have hr := begin_rec K link pre n a c hs hp cs hc
  refine ⟨?_, ?_⟩
  · obtain ⟨e, h1, h2, h3, -⟩ := rec_files K n a c _ _ hr
    refine ⟨_, (after (K a) e).2.drop (exec K link (fresh K) (pre ++ .conf n a c :: cs)).cw.w.off ++
        (K a).finish (after (K a) e).1, h2, ?_, ?_⟩
    · rw [destroy, h3, ← List.append_assoc, List.take_append_drop]
    · rw [← List.append_assoc, List.take_append_drop, hK a e, h1]
  · intro ps
    have e : exec K link (fresh K) (pre ++ .conf n a c :: (cs ++ [.run ps])) =
        run K (exec K link (fresh K) (pre ++ .conf n a c :: cs)) ps := by
      simp [exec, step, List.foldl_append]
    rw [e]
    exact (run_rec K n a c _ _ hr hs ps).2

/-- **C122 (partial, kept)** When a recorder is next configured for another file, the first one is complete: it reads back
as all payloads of its runs, and stays so whatever follows except a configuration with its name. -/
theorem C122_kept_partial {σ : Type} (K : Alg → Codec σ) (hK : ∀ a, Lawful (K a)) (pre : List Cmd) (n : Nat) (a : Alg) (c : Cfg)
    (hs : Safe (K a) c True) (cs : List Cmd) (hc : OnlyRuns cs) (m : Nat) (b : Alg) (c' : Cfg) (hm : m ≠ n)
    (post : List Cmd) (hn : NoConf n post) :
    ∃ g, lookup (exec K false (fresh K) (pre ++ .conf n a c :: cs ++ .conf m b c' :: post)) n = some g ∧
      (K a).dec g = recorded cs := by
  have hr := begin_rec K false pre n a c hs (Or.inl rfl) cs (Or.inr hc)
  obtain ⟨e, h1, -, -, h4⟩ := rec_files K n a c _ _ hr
  refine ⟨_, ?_, by rw [← h1]; exact hK a e⟩
  have e1 : exec K false (fresh K) (pre ++ .conf n a c :: cs ++ .conf m b c' :: post) =
      exec K false (confRec K (exec K false (fresh K) (pre ++ .conf n a c :: cs)) m b c') post := by
    rw [exec, List.foldl_append, List.foldl_cons]; rfl
  rw [e1]
  refine (exec_kept K false n _ (exec K false (fresh K) (pre ++ .conf n a c :: cs)).ino post _ ?_ hn).lookup
  rw [confRec_eq]
  refine ⟨?_, by have := hr.lt; simp only; omega, h4, ?_⟩
  · simp only; rw [if_neg (Ne.symm hm)]; exact hr.dir
  · intro _; simp only; have := hr.lt; omega

/-- **C122 (lost)** When a recorder is configured again for the same file, the name is removed before the rest of the
recording is written: the name stands for an empty file and all other names for what they did, so the recording is
nowhere. -/
theorem C122_lost {σ : Type} (K : Alg → Codec σ) (pre : List Cmd) (n : Nat) (a : Alg) (c : Cfg)
    (hs : Safe (K a) c True) (cs : List Cmd) (hc : OnlyRuns cs) (b : Alg) (c' : Cfg) :
    lookup (exec K false (fresh K) (pre ++ .conf n a c :: cs ++ [.conf n b c'])) n = some [] ∧
    ∀ m, m ≠ n → lookup (exec K false (fresh K) (pre ++ .conf n a c :: cs ++ [.conf n b c'])) m =
      lookup (exec K false (fresh K) (pre ++ .conf n a c :: cs)) m := by
  have hr := begin_rec K false pre n a c hs (Or.inl rfl) cs (Or.inr hc)
  have hd := exec_disk K false (pre ++ .conf n a c :: cs) _ (fresh_disk K)
  have e1 : exec K false (fresh K) (pre ++ .conf n a c :: cs ++ [.conf n b c']) =
      confRec K (exec K false (fresh K) (pre ++ .conf n a c :: cs)) n b c' := by
    rw [exec, List.foldl_append]; rfl
  rw [e1, confRec_eq]
  generalize exec K false (fresh K) (pre ++ .conf n a c :: cs) = s at hr hd
  refine ⟨by simp [lookup, openC, openW], ?_⟩
  intro m hm
  simp only [lookup, if_neg hm]
  cases hdm : s.dir m with
  | none => rfl
  | some i =>
    have hi : i ≠ s.ino := by
      intro e; rw [e] at hdm; exact hm (hd.inj m n _ hdm hr.dir)
    have hlt := hd.lt m i hdm
    simp only
    rw [if_neg (by rintro ⟨-, h⟩; omega), if_neg (by rintro ⟨-, h⟩; exact hi h)]
    simp only [shut]
    split
    · simp [hi]
    · rfl

/-- **C122 is false of the code (after stop)**: if the compressor has anything left to put out at the end, as all three
have (end marks and check sums), then after every stop the file is shorter than the complete one; it becomes complete
only when the module is configured for another file or destroyed. -/
theorem C122_incomplete_counterexample {σ : Type} (K : Alg → Codec σ) (link : Bool) (pre : List Cmd) (n : Nat)
    (a : Alg) (hf : ∀ s, (K a).finish s ≠ []) (c : Cfg) (hs : Safe (K a) c True) (hp : link = false ∨ OnlyRuns pre)
    (cs : List Cmd) (hc : link = true ∨ OnlyRuns cs) :
    ∃ f g, lookup (exec K link (fresh K) (pre ++ .conf n a c :: cs)) n = some f ∧
      lookup (destroy K (exec K link (fresh K) (pre ++ .conf n a c :: cs))) n = some g ∧ f.length < g.length := by
  obtain ⟨e, -, h2, h3, -⟩ := rec_files K n a c _ _ (begin_rec K link pre n a c hs hp cs hc)
  refine ⟨_, _, h2, h3, ?_⟩
  have : 0 < ((K a).finish (after (K a) e).1).length := List.length_pos_iff.2 (hf _)
  simp only [List.length_take, List.length_append]
  omega

/-! ### A compressor -/

/-- Run-length coding with an end mark: a small compressor that does its work. -/
def rle (deep : Bool) : Codec (Option (Nat × Nat)) where
  init := none
  feed s x := match s with
    | none => (some (x, 1), [])
    | some (y, k) => if x = y then (some (y, k + 1), []) else (some (x, 1), [y, k])
  pass s := (s, [])
  finish s := match s with
    | none => [0, 0]
    | some (y, k) => [y, k, 0, 0]
  dec := unrle
  deep := deep
where
  /-- Its decompressor. -/
  unrle : List Nat → List Nat
    | y :: k :: l => List.replicate k y ++ unrle l
    | _ => []

/-- What it holds. -/
def held : Option (Nat × Nat) → List Nat
  | none => []
  | some (y, k) => List.replicate k y

theorem unrle_append : ∀ (l r : List Nat), l.length % 2 = 0 → rle.unrle (l ++ r) = rle.unrle l ++ rle.unrle r
  | [], r, _ => by simp [rle.unrle]
  | [x], r, h => by simp at h
  | y :: k :: l, r, h => by
    have := unrle_append l r (by simp only [List.length_cons] at h; omega)
    simp [rle.unrle, this]

theorem rle_after (deep : Bool) (h : List Ev) : (after (rle deep) h).2.length % 2 = 0 ∧
    rle.unrle (after (rle deep) h).2 ++ held (after (rle deep) h).1 = chars h := by
  suffices ∀ (h : List Ev) (r : Option (Nat × Nat) × List Nat), r.2.length % 2 = 0 →
      (h.foldl (told (rle deep)) r).2.length % 2 = 0 ∧
      rle.unrle (h.foldl (told (rle deep)) r).2 ++ held (h.foldl (told (rle deep)) r).1 =
        rle.unrle r.2 ++ held r.1 ++ chars h by
    have h1 := this h ((rle deep).init, []) rfl
    exact h1
  intro h
  induction h with
  | nil => intro r hr; simp [chars, hr]
  | cons e h ih =>
    intro r hr
    rw [List.foldl_cons]
    have key : (told (rle deep) r e).2.length % 2 = 0 ∧
        rle.unrle (told (rle deep) r e).2 ++ held (told (rle deep) r e).1 =
          rle.unrle r.2 ++ held r.1 ++ chars [e] := by
      obtain ⟨s, out⟩ := r
      simp only at hr
      cases e with
      | pass => simp [told, rle, chars, hr]
      | byte x =>
        cases s with
        | none => simp [told, rle, chars, hr, held]
        | some p =>
          obtain ⟨y, k⟩ := p
          by_cases hx : x = y
          · simp [told, rle, chars, hr, held, hx, List.replicate_succ']
          · simp only [told, rle, if_neg hx]
            refine ⟨by simp; omega, ?_⟩
            rw [unrle_append _ _ hr]
            simp [rle.unrle, held, chars]
    obtain ⟨h1, h2⟩ := ih _ key.1
    refine ⟨h1, ?_⟩
    rw [h2, key.2]
    cases e <;> simp [chars]

theorem rle_lawful (deep : Bool) : Lawful (rle deep) := by
  intro h
  obtain ⟨h1, h2⟩ := rle_after deep h
  show rle.unrle ((after (rle deep) h).2 ++ _) = _
  rw [unrle_append _ _ h1, ← h2]
  congr 1
  cases (after (rle deep) h).1 with
  | none => rfl
  | some p => simp [rle, rle.unrle, held]

theorem rle_quiet (deep : Bool) (h : List Ev) (hz : ∀ x ∈ chars h, x = 0) : (after (rle deep) h).2 = [] := by
  suffices ∀ (h : List Ev) (r : Option (Nat × Nat) × List Nat), (∀ x ∈ chars h, x = 0) → r.2 = [] →
      (∀ p, r.1 = some p → p.1 = 0) → (h.foldl (told (rle deep)) r).2 = [] by
    exact this h ((rle deep).init, []) hz rfl (by intro p hp; cases hp)
  intro h
  induction h with
  | nil => intro r _ hr _; exact hr
  | cons e h ih =>
    intro r hz hr hp
    rw [List.foldl_cons]
    obtain ⟨s, out⟩ := r
    simp only at hr hp
    cases e with
    | pass => exact ih _ hz (by simp [told, rle, hr]) (by simpa [told, rle] using hp)
    | byte x =>
      have hx : x = 0 := hz x (by simp [chars])
      have hz' : ∀ y ∈ chars h, y = 0 := fun y hy => hz y (by simp [chars, hy])
      cases s with
      | none => exact ih _ hz' (by simp [told, rle, hr]) (by simp [told, rle, hx])
      | some p =>
        have h0 := hp p rfl
        obtain ⟨y, k⟩ := p
        simp only at h0
        have he : x = y := by omega
        exact ih _ hz' (by simp [told, rle, hr, he]) (by simp [told, rle, he, h0])

/-- **C122 is false of the code (nothing there)**: a compressor may hold back everything. However much of a quiet detector
is recorded, with every write reported successful and every payload counted, after the stop the file is empty and
reading it back gives no record. -/
theorem C122_empty_counterexample (deep link : Bool) (n : Nat) (c : Cfg) (hs : Safe (rle deep) c True) (ps : List Pop)
    (hz : ∀ b ∈ got ps, ∀ x ∈ b, x = 0) (k : Nat) (hk : 0 < k) :
    (exec (fun _ => rle deep) link (fresh fun _ => rle deep) [.conf n .zstd c, .run ps]).total = (got ps).length ∧
    lookup (exec (fun _ => rle deep) link (fresh fun _ => rle deep) [.conf n .zstd c, .run ps]) n = some [] ∧
    (File.read k (openR (rle deep) [])).2 = none := by
  have hr := begin_rec (fun _ => rle deep) link [] n .zstd c hs (Or.inr (by intro m a x h; cases h)) [.run ps]
    (Or.inr (by intro m a x h; simp at h))
  have ht := (C122_recorded_partial (fun _ => rle deep) (fun _ => rle_lawful deep) link [] n .zstd c hs
    (Or.inr (by intro m a x h; cases h)) [] (Or.inr (by intro m a x h; cases h))).2 ps
  obtain ⟨e, h1, h2, -, -⟩ := rec_files _ n .zstd c _ _ hr
  refine ⟨ht, ?_, ?_⟩
  · have hq := rle_quiet deep e (by
      rw [h1]
      intro x hx
      simp only [recorded, List.append_nil] at hx
      obtain ⟨b, hb, hx⟩ := List.mem_flatten.1 hx
      exact hz b hb x hx)
    rw [hq] at h2
    simpa using h2
  · have hk' : ¬ (0 = k) := by omega
    simp [openR, rle, rle.unrle, File.read, hk']

/-- **C122 is false of the code (O_DIRECT)**: with a flush that reaches the device, the second run of a recorder with O_DIRECT
ends at its second payload, although four more are waiting. -/
theorem C122_direct_counterexample :
    (exec (fun _ => rle true) false (fresh fun _ => rle true)
      [.conf 0 .zlib ⟨4, true, 4, true⟩, .run [.got [1, 2]],
       .run [.got [4, 5], .got [6, 7], .got [8, 9], .got [10, 11], .got [12, 13], .got [14, 15]]]).total = 2 := by
  decide +kernel

/-- Non-vacuity: two files, three runs, buffers of four bytes; both algorithms are run-length coding. -/
example : lookup (exec (fun _ => rle true) false (fresh fun _ => rle true)
      [.conf 0 .zlib ⟨4, false, 4, true⟩, .run [.got [1, 1, 1], .timeout, .got [1, 2]], .run [.got [2, 2]],
       .conf 1 .zstd ⟨4, false, 4, true⟩, .run [.got [5]]]) 0 = some [1, 4, 2, 3, 0, 0] := by decide +kernel

example : lookup (exec (fun _ => rle true) false (fresh fun _ => rle true)
      [.conf 0 .zlib ⟨4, false, 4, true⟩, .run [.got [1, 1, 1], .timeout, .got [1, 2]], .run [.got [2, 2]]]) 0 =
    some [1, 4] := by decide +kernel

/-- Non-vacuity: the hypotheses of the theorems hold for this compressor, with and without O_DIRECT. -/
example : Lawful (rle true) ∧ (∀ s, (rle true).finish s ≠ []) ∧ Safe (rle true) ⟨4, false, 4, true⟩ True ∧
    Safe (rle false) ⟨8, true, 4, true⟩ True ∧ OnlyRuns [.run [.got [1]]] ∧ NoConf 0 [.conf 1 .none ⟨0, false, 1, true⟩] := by
  refine ⟨rle_lawful true, ?_, Or.inl rfl, Or.inr ⟨by decide, by decide, Or.inl rfl⟩, ?_, ?_⟩
  · intro s; cases s <;> simp [rle]
  · intro m a c h; simp at h
  · intro m a c h; simp at h; omega

end Verif.Comp
