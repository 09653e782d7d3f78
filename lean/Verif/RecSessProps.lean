import Verif.RecSessModel
import Verif.RecordProps
import Verif.FileDirect
/- Property C97: the recording file after any number of record commands and runs. -/
namespace Verif.RecSess
open Verif.Ring Verif.Record
open Verif.DataReq (PayloadType)

variable {P : Type}

/-- The calls a finished recording makes on the writer. -/
def recOps (bytes : P → List Nat) (ps : List P) : List File.Op := ps.map (fun p => .write (bytes p))

def allOps (bytes : P → List Nat) (recs : List (Nat × List P)) : List File.Op :=
  recs.flatMap (fun x => recOps bytes x.2 ++ [.flush])

theorem ops_append (c : File.Cfg) (w : File.W) (a b : List File.Op) :
    (File.ops c w (a ++ b)).1 = (File.ops c (File.ops c w a).1 b).1 := by
  induction a generalizing w with
  | nil => rfl
  | cons o a ih => cases o <;> simp [File.ops, ih]

theorem writeAll_ops (c : File.Cfg) (bytes : P → List Nat) (w : File.W) (ps : List P) :
    writeAll c bytes w ps = (File.ops c w (recOps bytes ps)).1 := by
  induction ps generalizing w with
  | nil => rfl
  | cons p ps ih =>
    have := ih (File.write c w (bytes p)).1
    simpa [writeAll, recOps, File.ops] using this

/-- What the buffer holds is the newest part of what was accepted, which is in time order. -/
structure Base (T : PayloadType P) (r : Record.St P) : Prop where
  sto : ∃ l, Repr r.q l ∧ l <:+ r.all
  size : r.q.size ≤ endIdx
  ord : r.all.Pairwise (fun a b => T.ts a + span T a ≤ T.ts b)
  pos : ∀ a ∈ r.all, 0 < T.ts a

structure Inv (T : PayloadType P) (limit : Nat) (toPop : Nat → Nat) (fc : File.Cfg) (bytes : P → List Nat) (s : St P) :
    Prop where
  base : Base T s.r
  suf : s.r.all <:+ s.hist s.run
  run : s.th = .running → Record.Reach T limit toPop s.r
  idle : s.th ≠ .running → s.r.pc = .start
  none : s.th = .ready ∨ s.th = .launched ∨ s.th = .flagged ∨ s.th = .executed → s.r.file = []
  file : s.r.file <:+: s.hist s.run
  nodup : (s.r.file.map T.ts).Pairwise (· < ·)
  recs : ∀ x ∈ s.recs, x.1 ≤ s.run ∧ x.2 <:+: s.hist x.1 ∧ (x.2.map T.ts).Pairwise (· < ·)
  w : s.w = (File.ops fc (File.openW fc []) (allOps bytes s.recs ++ recOps bytes s.r.file)).1
  flag : s.flag = true ↔ (s.th = .flagged ∨ s.th = .running ∨ s.th = .ended)
  cmds : s.cmds.count .started = s.recs.length + (if s.th = .ready ∨ s.th = .executed then 0 else 1)

theorem rec_pc {T : PayloadType P} {r r' : Record.St P} (h : recStep T r = .ok r') : r'.pc ≠ r.pc := by
  unfold recStep at h
  split at h
  · next hpc =>
    split at h
    · split at h
      · injection h with h; subst h; simp [hpc]
      · cases hd : r.q.derefPtr (some _) with
        | ok a => rw [hd] at h; simp at h; subst h; simp [hpc]
        | ub u => rw [hd] at h; simp at h
        | throws e => rw [hd] at h; simp at h
    · injection h with h; subst h; simp [hpc]
  · next hpc =>
    cases hd : Search.lowerBound r.q T.ts r.next r.q.size with
    | ok a =>
      rw [hd] at h
      cases a with
      | none => simp at h
      | some it => simp at h; subst h; simp [hpc]
    | ub u => rw [hd] at h; simp at h
    | throws e => rw [hd] at h; simp at h
  · next it cnt hpc =>
    split at h <;> (injection h with h; subst h; simp [hpc])
  · next it cnt hpc =>
    cases hd : r.q.deref it with
    | ok a =>
      rw [hd] at h
      simp only [Outcome.bind_ok] at h
      split at h <;> (injection h with h; subst h; simp [hpc])
    | ub u => rw [hd] at h; simp at h
    | throws e => rw [hd] at h; simp at h

theorem rec_file {T : PayloadType P} {r r' : Record.St P} (h : recStep T r = .ok r') :
    r.file <+: r'.file ∧ r'.all = r.all := by
  unfold recStep at h
  split at h
  · split at h
    · split at h
      · injection h with h; subst h; exact ⟨List.prefix_refl _, rfl⟩
      · cases hd : r.q.derefPtr (some _) with
        | ok a => rw [hd] at h; simp at h; subst h; exact ⟨List.prefix_refl _, rfl⟩
        | ub u => rw [hd] at h; simp at h
        | throws e => rw [hd] at h; simp at h
    · injection h with h; subst h; exact ⟨List.prefix_refl _, rfl⟩
  · cases hd : Search.lowerBound r.q T.ts r.next r.q.size with
    | ok a =>
      rw [hd] at h
      cases a with
      | none => simp at h
      | some it => simp at h; subst h; exact ⟨List.prefix_refl _, rfl⟩
    | ub u => rw [hd] at h; simp at h
    | throws e => rw [hd] at h; simp at h
  · split at h <;> (injection h with h; subst h; exact ⟨List.prefix_refl _, rfl⟩)
  · next it cnt hpc =>
    cases hd : r.q.deref it with
    | ok a =>
      rw [hd] at h
      simp only [Outcome.bind_ok] at h
      split at h
      · injection h with h; subst h; exact ⟨List.prefix_append _ _, rfl⟩
      · injection h with h; subst h; exact ⟨List.prefix_refl _, rfl⟩
    | ub u => rw [hd] at h; simp at h
    | throws e => rw [hd] at h; simp at h

/-- Steps that are not the recording thread's. -/
theorem env_base {T : PayloadType P} {limit : Nat} {toPop : Nat → Nat} {r r' : Record.St P} (hb : Base T r)
    (st : Record.Step T limit toPop r r') (hp : r'.pc = r.pc) :
    Base T r' ∧ r.all <+: r'.all ∧ r'.file = r.file := by
  obtain ⟨⟨l, hr, hl⟩, hs, ho, h0⟩ := hb
  cases st with
  | record _ _ h => exact absurd hp (rec_pc h)
  | arrive q' p b hord hp0 h =>
    by_cases hf : l.length < r.q.size - 1
    · obtain ⟨q2, e, r2, s2, -⟩ := write_ok hr p hf
      rw [e] at h
      injection h with h
      obtain ⟨rfl, rfl⟩ := Prod.mk.inj h
      refine ⟨⟨⟨l ++ [p], r2, ?_⟩, by show q2.size ≤ _; rw [s2]; exact hs, ?_, ?_⟩, ?_, rfl⟩
      · obtain ⟨t, ht⟩ := hl
        exact ⟨t, by simp [← ht]⟩
      · show (if true = true then r.all ++ [p] else r.all).Pairwise _
        rw [if_pos rfl, List.pairwise_append]
        exact ⟨ho, by simp, fun a ha b hb => by simp at hb; subst hb; exact hord a ha⟩
      · intro a ha
        simp only [if_true, List.mem_append, List.mem_singleton] at ha
        rcases ha with ha | rfl
        · exact h0 a ha
        · exact hp0
      · simp
    · have e := write_full hr p hf
      rw [e] at h
      injection h with h
      obtain ⟨rfl, rfl⟩ := Prod.mk.inj h
      refine ⟨⟨⟨l, repr_overflow hr _, by simpa using hl⟩, hs, by simpa using ho, by simpa using h0⟩, by simp, rfl⟩
  | cleanStart h hl0 => exact ⟨⟨⟨l, hr, hl⟩, hs, ho, h0⟩, List.prefix_refl _, rfl⟩
  | cleanPop q' a n hl0 hf ht h =>
    obtain ⟨l', rfl⟩ := front_head hr hf
    obtain ⟨r1, s1, -⟩ := pop1 hr h
    exact ⟨⟨⟨l', r1, (List.suffix_cons a l').trans hl⟩, by show q'.size ≤ _; rw [s1]; exact hs, ho, h0⟩,
      List.prefix_refl _, rfl⟩
  | cleanStop a n hl0 hf ht => exact ⟨⟨⟨l, hr, hl⟩, hs, ho, h0⟩, List.prefix_refl _, rfl⟩

theorem reach_base {T : PayloadType P} (hsp : ∀ p, 0 < span T p) {limit : Nat} {toPop : Nat → Nat} {r : Record.St P}
    (h : Record.Reach T limit toPop r) : Base T r ∧ r.file <:+: r.all ∧ (r.file.map T.ts).Pairwise (· < ·) := by
  obtain ⟨l, base, inv⟩ := Record.inv_reach hsp h
  refine ⟨⟨⟨l, inv.repr, by rw [inv.sto]; exact List.drop_suffix _ _⟩, inv.size, inv.ord, inv.pos0⟩, ?_,
    (C25_strictly_increasing_partial T hsp limit toPop r h).1⟩
  obtain ⟨l2, -, -, h2⟩ := C26_nothing_lost_partial T hsp limit toPop r h
  by_cases hf : r.file = []
  · rw [hf]; exact List.nil_infix
  · obtain ⟨b, t, e, -⟩ := h2 hf
    exact ⟨b, t, e.symm⟩

theorem extend_same (h : Nat → List P) (n : Nat) (ps : List P) : extend h n ps n = h n ++ ps := by simp [extend]

theorem extend_infix {h : Nat → List P} {n m : Nat} {ps x : List P} (hx : x <:+: h m) : x <:+: extend h n ps m := by
  unfold extend
  split
  · obtain ⟨a, b, e⟩ := hx
    exact ⟨a, b ++ ps, by rw [← e]; simp⟩
  · exact hx

theorem inv_step {T : PayloadType P} (hsp : ∀ p, 0 < span T p) {limit : Nat} {toPop : Nat → Nat} {fc : File.Cfg}
    {bytes : P → List Nat} {s s' : St P} (h : Inv T limit toPop fc bytes s) (st : Step T limit toPop fc bytes s s') :
    Inv T limit toPop fc bytes s' := by
  obtain ⟨ib, isu, ir, ii, ino, ifi, ind, ire, iw, ifl, ic⟩ := h
  cases st with
  | command =>
    by_cases hf : s.flag = true
    · refine ⟨?_, ?_, ?_, ?_, ?_, ?_, ?_, ?_, ?_, ?_, ?_⟩ <;> simp only [command, hf, if_true] <;> try assumption
      · simpa [hf] using ifl
      · simpa using ic
    · by_cases ht : s.th = .ready
      · refine ⟨?_, ?_, ?_, ?_, ?_, ?_, ?_, ?_, ?_, ?_, ?_⟩ <;>
          simp only [command, hf, ht, if_true] <;> try assumption
        · simp
        · exact fun _ => ii (by simp [ht])
        · exact fun _ => ino (.inl ht)
        · simpa [ht] using ifl
        · simp [ht] at ic ⊢; exact ic
      · refine ⟨?_, ?_, ?_, ?_, ?_, ?_, ?_, ?_, ?_, ?_, ?_⟩ <;>
          simp only [command, hf, ht, if_false] <;> try assumption
        · simpa [hf] using ifl
        · simpa [ht] using ic
  | flag h =>
    refine ⟨ib, isu, by simp, fun _ => ii (by simp [h]), fun _ => ino (.inr (.inl h)), ifi, ind, ire, iw, by simp, ?_⟩
    simp [h] at ic ⊢; exact ic
  | launch l h hl =>
    obtain ⟨⟨l', hr', hl'⟩, hsz, ho, h0⟩ := ib
    have := repr_unique hl hr'
    subst this
    have hnf := ino (.inr (.inr (.inl h)))
    refine ⟨⟨⟨l, hl, List.suffix_refl _⟩, hsz, ho.sublist hl'.sublist, fun a ha => h0 a (hl'.subset ha)⟩,
      hl'.trans isu, fun _ => ?_, by simp [launch], by simp [launch], List.nil_infix, by simp [launch], ire, ?_, ?_, ?_⟩
    · exact .init s.r.q l s.r.left hl hsz (ho.sublist hl'.sublist) (fun a ha => h0 a (hl'.subset ha))
    · rw [hnf] at iw; exact iw
    · simp [launch, ifl, h]
    · simp [h] at ic; simp [launch, ic]
  | recorded r' h hp he =>
    have hr := Record.Reach.step _ _ (ir h) (.record _ _ hp he)
    obtain ⟨hb, hfi, hnd⟩ := reach_base hsp hr
    obtain ⟨hpre, hall⟩ := rec_file he
    refine ⟨hb, by show r'.all <:+ _; rw [hall]; exact isu, fun _ => hr, fun hx => absurd h hx, fun hx => ?_,
      ?_, hnd, ire, ?_, ifl, ic⟩
    · have hx' : s.th = .ready ∨ s.th = .launched ∨ s.th = .flagged ∨ s.th = .executed := hx
      rw [h] at hx'; simp at hx'
    · show r'.file <:+: s.hist s.run
      rw [hall] at hfi
      exact hfi.trans isu.isInfix
    · show writeAll fc bytes s.w (grown s.r r') = (File.ops fc _ (allOps bytes s.recs ++ recOps bytes r'.file)).1
      obtain ⟨t, ht⟩ := hpre
      have hg : grown s.r r' = t := by simp [grown, ← ht]
      have hro : recOps bytes r'.file = recOps bytes s.r.file ++ recOps bytes t := by simp [recOps, ← ht]
      rw [hg, writeAll_ops, hro, ← List.append_assoc, ops_append fc _ (_ ++ _), ← iw]
  | leave h hp =>
    refine ⟨⟨ib.sto, ib.size, ib.ord, ib.pos⟩, isu, by simp [leave], by simp [leave], by simp [leave], ifi, ind, ire, iw,
      ?_, ?_⟩
    · simp [leave, ifl, h]
    · simp [h] at ic; simp [leave, ic]
  | unflag h =>
    refine ⟨ib, isu, by simp, fun _ => ii (by simp [h]), by simp, ifi, ind, ire, iw, by simp, ?_⟩
    simp [h] at ic ⊢; exact ic
  | flush h =>
    refine ⟨⟨ib.sto, ib.size, ib.ord, ib.pos⟩, isu, by simp [finish], fun _ => ii (by simp [h]), fun _ => rfl,
      List.nil_infix, by simp [finish], ?_, ?_, ?_, ?_⟩
    · intro x hx
      simp only [finish, List.mem_append, List.mem_singleton] at hx
      rcases hx with hx | rfl
      · exact ire x hx
      · exact ⟨Nat.le_refl _, ifi, ind⟩
    · show File.flush fc s.w = _
      have : (finish fc s).recs = s.recs ++ [(s.run, s.r.file)] := rfl
      have h2 : (finish fc s).r.file = [] := rfl
      rw [this, h2]
      have e : allOps bytes (s.recs ++ [(s.run, s.r.file)]) ++ recOps bytes [] =
          (allOps bytes s.recs ++ recOps bytes s.r.file) ++ [.flush] := by simp [allOps, recOps]
      rw [e, ops_append, ← iw]
      rfl
    · simp [finish, ifl, h]
    · simp [h] at ic; simp [finish, ic]
  | done h =>
    refine ⟨ib, isu, by simp, fun _ => ii (by simp [h]), fun _ => ino (by simp [h]), ifi, ind, ire, iw, ?_, ?_⟩
    · simp [ifl, h]
    · simp [h] at ic ⊢; exact ic
  | other r' st hp =>
    obtain ⟨hb, ⟨t, ht⟩, hf⟩ := env_base ib st hp
    have hg : r'.all.drop s.r.all.length = t := by simp [← ht]
    refine ⟨hb, ?_, fun hx => .step _ _ (ir hx) st, fun hx => by show r'.pc = _; rw [hp]; exact ii hx,
      fun hx => by show r'.file = []; rw [hf]; exact ino hx, ?_, ?_, ?_, ?_, ifl, ic⟩
    · show r'.all <:+ extend s.hist s.run (r'.all.drop s.r.all.length) s.run
      rw [hg, extend_same, ← ht]
      obtain ⟨u, hu⟩ := isu
      exact ⟨u, by rw [← hu]; simp⟩
    · show r'.file <:+: extend s.hist s.run _ s.run
      rw [hf]; exact extend_infix ifi
    · show (r'.file.map T.ts).Pairwise _
      rw [hf]; exact ind
    · intro x hx
      obtain ⟨a, b, c⟩ := ire x hx
      exact ⟨a, extend_infix b, c⟩
    · show s.w = (File.ops fc _ (allOps bytes s.recs ++ recOps bytes r'.file)).1
      rw [hf]; exact iw
  | stop q h hl hq =>
    obtain ⟨⟨l, hr, -⟩, hsz, -, -⟩ := ib
    obtain ⟨q', e, r', s', -⟩ := flush_ok hr
    rw [hq] at e
    injection e with e
    subst e
    have hfile : s.r.file = [] := ino (by rcases h with h | h <;> simp [h])
    refine ⟨⟨⟨[], r', List.nil_suffix⟩, by show q.size ≤ _; rw [s']; exact hsz, by simp [emptied], by simp [emptied]⟩,
      List.nil_suffix, fun hx => ?_, ii, ino, ?_, ind, ?_, iw, ifl, ic⟩
    · have hx' : s.th = .running := hx
      rw [hx'] at h; simp at h
    · show s.r.file <:+: _
      rw [hfile]; exact List.nil_infix
    · intro x hx
      obtain ⟨a, b, c⟩ := ire x hx
      exact ⟨Nat.le_succ_of_le a, b, c⟩

theorem inv_reach {T : PayloadType P} (hsp : ∀ p, 0 < span T p) {limit : Nat} {toPop : Nat → Nat} {fc : File.Cfg}
    {bytes : P → List Nat} {n : Nat} (hn : 2 ≤ n) (hn2 : n ≤ endIdx) {s : St P}
    (h : Reach T limit toPop fc bytes n s) : Inv T limit toPop fc bytes s := by
  induction h with
  | init =>
    refine ⟨⟨⟨[], repr_init n hn, List.nil_suffix⟩, hn2, by simp [St.init], by simp [St.init]⟩, List.nil_suffix,
      by simp [St.init], by simp [St.init], fun _ => rfl, List.nil_infix, by simp [St.init], by simp [St.init], rfl,
      by simp [St.init], by simp [St.init]⟩
  | step s s' _ st ih => exact inv_step hsp ih st

/-! ### Main theorems -/

theorem written_append (a b : List File.Op) : File.written (a ++ b) = File.written a ++ File.written b := by
  induction a with
  | nil => rfl
  | cons o a ih => cases o <;> simp [File.written, ih]

theorem written_recOps (bytes : P → List Nat) (ps : List P) : File.written (recOps bytes ps) = ps.flatMap bytes := by
  induction ps with
  | nil => rfl
  | cons p ps ih =>
    have : recOps bytes (p :: ps) = .write (bytes p) :: recOps bytes ps := rfl
    rw [this]
    simp [File.written, ih]

theorem written_allOps (bytes : P → List Nat) (recs : List (Nat × List P)) :
    File.written (allOps bytes recs) = recs.flatMap (fun x => x.2.flatMap bytes) := by
  induction recs with
  | nil => rfl
  | cons x recs ih =>
    have : allOps bytes (x :: recs) = (recOps bytes x.2 ++ [.flush]) ++ allOps bytes recs := by simp [allOps]
    rw [this, written_append, written_append, written_recOps, ih]
    simp [File.written]

/-- What is recorded gets through: no O_DIRECT, or every recording fits into the writer's buffer or begins on a block
boundary of the file with buffers of whole blocks. -/
def Fit (fc : File.Cfg) (bytes : P → List Nat) (recs : List (Nat × List P)) : Prop :=
  fc.useDirect = false ∨ (0 < fc.cap ∧ File.AllThrough fc 0 (recs.map fun x => (x.2.flatMap bytes).length))

theorem allOps_calls (bytes : P → List Nat) (recs : List (Nat × List P)) :
    (recs.map fun x => x.2.map bytes).flatMap File.calls = allOps bytes recs := by
  simp [List.flatMap_map, allOps, recOps, File.calls, List.map_map, Function.comp_def]

theorem stretches_flatten (bytes : P → List Nat) (recs : List (Nat × List P)) :
    (recs.map fun x => x.2.map bytes).flatten.flatten = recs.flatMap (fun x => x.2.flatMap bytes) := by
  induction recs with
  | nil => rfl
  | cons x l ih => simp only [List.map_cons, List.flatten_cons, List.flatten_append, ih, List.flatMap_cons, List.flatMap_def]

/-- The recordings of one file, with O_DIRECT. -/
theorem file_direct (fc : File.Cfg) (hd : fc.useDirect = true) (hc : 0 < fc.cap) (bytes : P → List Nat)
    (recs : List (Nat × List P)) :
    ((File.ops fc (File.openW fc []) (allOps bytes recs)).1.file = recs.flatMap (fun x => x.2.flatMap bytes) ↔
      File.AllThrough fc 0 (recs.map fun x => (x.2.flatMap bytes).length)) ∧
    (File.ops fc (File.openW fc []) (allOps bytes recs)).1.file <+: recs.flatMap (fun x => x.2.flatMap bytes) := by
  have h1 := File.stretches_exact fc hd hc (recs.map fun x => x.2.map bytes)
  have e3 : (recs.map fun x => x.2.map bytes).map (·.flatten.length) = recs.map fun x => (x.2.flatMap bytes).length := by
    simp [List.map_map, Function.comp_def, List.flatMap_def]
  rw [allOps_calls, stretches_flatten, e3] at h1
  exact h1

theorem file_after (fc : File.Cfg) (bytes : P → List Nat) (recs : List (Nat × List P)) (ha : Fit fc bytes recs) :
    (File.ops fc (File.openW fc []) (allOps bytes recs)).1.file = recs.flatMap (fun x => x.2.flatMap bytes) := by
  by_cases hd : fc.useDirect = true
  · rcases ha with ha | ⟨h1, h2⟩
    · rw [ha] at hd; cases hd
    · exact (file_direct fc hd h1 bytes recs).1.2 h2
  have hd : fc.useDirect = false := by simpa using hd
  rcases List.eq_nil_or_concat recs with rfl | ⟨pre, x, rfl⟩
  · rfl
  · rw [List.concat_eq_append] at *
    have hopen : File.Inv fc [] [] (File.openW fc []) := File.open_inv fc [] (.inl hd)
    have hrel : File.Reliable fc ([] : List Nat).length (allOps bytes pre ++ recOps bytes x.2) := .inl hd
    have hinv := (File.ops_inv fc [] _ [] _ hopen hrel).1
    have e : allOps bytes (pre ++ [x]) = (allOps bytes pre ++ recOps bytes x.2) ++ [.flush] := by simp [allOps]
    rw [e, ops_append]
    generalize (File.ops fc (File.openW fc []) (allOps bytes pre ++ recOps bytes x.2)).1 = w at hinv
    rw [List.nil_append, written_append, written_allOps, written_recOps] at hinv
    have h0 : File.Inv fc [] (pre.flatMap (fun x => x.2.flatMap bytes) ++ x.2.flatMap bytes) { w with direct := false } :=
      ⟨hinv.opn, hinv.good, hinv.le, hinv.file, hinv.buf, hinv.len, by simp⟩
    have hs := File.sync_ok fc [] _ _ h0 (by simp)
    show (File.flush fc w).file = _
    rw [File.flush_eq fc _ (by simp [hinv.good])]
    show (File.sync fc _).file = _
    rw [hs]
    simp [File.overlay]

/-- **C97 (file, partial)** Whenever no recording is under way, after any number of record commands, runs, arrivals and
cleanups: the file holds the payloads of all recordings, one recording after the other, byte for byte; every recording
is a contiguous stretch of the payloads stored in one run, in time order without repetition; and reading elements of
the payloads' common size gives them back. With O_DIRECT if the recordings get through the buffer (`Fit`; this is needed,
`C97_direct_exact`). Missing: a payload may be in several recordings, see the counterexample. -/
theorem C97_file_partial (T : PayloadType P) (hsp : ∀ p, 0 < span T p) (limit : Nat) (toPop : Nat → Nat)
    (fc : File.Cfg) (bytes : P → List Nat) (n : Nat) (hn : 2 ≤ n) (hn2 : n ≤ endIdx) (s : St P)
    (h : Reach T limit toPop fc bytes n s) (hth : s.th = .ready) (ha : Fit fc bytes s.recs) :
    s.w.file = s.recs.flatMap (fun x => x.2.flatMap bytes) ∧
    (∀ x ∈ s.recs, x.1 ≤ s.run ∧ x.2 <:+: s.hist x.1 ∧ (x.2.map T.ts).Pairwise (· < ·)) ∧
    (∀ k, 0 < k → (∀ x ∈ s.recs, ∀ p ∈ x.2, (bytes p).length = k) →
      File.reads k ((s.recs.flatMap (·.2)).length + 1) ⟨true, s.w.file⟩ =
        (s.recs.flatMap (·.2)).map (fun p => some (bytes p)) ++ [none]) := by
  have inv := inv_reach hsp hn hn2 h
  have hfile : s.w.file = s.recs.flatMap (fun x => x.2.flatMap bytes) := by
    have := inv.w
    rw [inv.none (.inl hth)] at this
    rw [this]
    simpa [recOps] using file_after fc bytes s.recs ha
  refine ⟨hfile, inv.recs, fun k hk hb => ?_⟩
  have e : s.w.file = ((s.recs.flatMap (·.2)).map bytes).flatten := by
    rw [hfile, ← List.flatMap_def, List.flatMap_assoc]
  have := File.reads_records k hk ((s.recs.flatMap (·.2)).map bytes) (by
    intro r hr
    obtain ⟨p, hp, rfl⟩ := List.mem_map.1 hr
    obtain ⟨x, hx, hpx⟩ := List.mem_flatMap.1 hp
    exact hb x hx p hpx)
  rw [← e, List.length_map, List.map_map] at this
  exact this

/-- A step that leaves the recording thread at the start of its loop does not move the recording position. -/
theorem next_kept {T : PayloadType P} {limit : Nat} {toPop : Nat → Nat} {r r' : Record.St P}
    (st : Record.Step T limit toPop r r') (h : r.pc = .start) (hp : r'.pc = r.pc) : r'.next = r.next := by
  cases st with
  | record _ _ he =>
    exfalso
    rw [h] at hp
    simp only [recStep, h] at he
    split at he
    · split at he
      · obtain rfl := Outcome.ok.inj he
        exact absurd hp (by simp)
      · next i _ =>
        rcases hd : r.q.derefPtr (some i) with a | a | a <;> rw [hd] at he
        · simp only [Outcome.bind_ok] at he
          obtain rfl := Outcome.ok.inj he
          exact absurd hp (by simp)
        · cases he
        · cases he
    · obtain rfl := Outcome.ok.inj he
      exact absurd hp (by simp)
  | arrive => rfl
  | cleanStart => rfl
  | cleanPop => rfl
  | cleanStop => rfl

/-- **C97 (at rest)** Between recordings the recording position is the largest time, for all executions: recordings that
are over, were refused or were dropped never hold back a cleanup. -/
theorem C97_at_rest (T : PayloadType P) (limit : Nat) (toPop : Nat → Nat) (fc : File.Cfg) (bytes : P → List Nat) (n : Nat)
    (s : St P) (h : Reach T limit toPop fc bytes n s) (hth : s.th ≠ .running) : s.r.next = 2 ^ 64 - 1 := by
  have key : s.th ≠ .running → s.r.next = 18446744073709551615 ∧ s.r.pc = .start := by
    clear hth
    induction h with
    | init => exact fun _ => ⟨rfl, rfl⟩
    | step s s' _ st ih =>
      cases st with
      | command =>
        unfold command
        split
        · exact ih
        · split
          · next hr => exact fun _ => ih (by rw [hr]; simp)
          · exact ih
      | flag h => exact fun _ => ih (by rw [h]; simp)
      | launch l h hl => exact fun hn => absurd rfl hn
      | recorded r' h hp he => exact fun hn => absurd h hn
      | leave h hp => exact fun _ => ⟨rfl, rfl⟩
      | unflag h => exact fun _ => ih (by rw [h]; simp)
      | flush h => exact fun _ => ih (by rw [h]; simp)
      | done h => exact fun _ => ih (by rw [h]; simp)
      | other r' st hp =>
        intro hn
        obtain ⟨a, b⟩ := ih hn
        exact ⟨(next_kept st b hp).trans a, hp.trans b⟩
      | stop q h hl hq => exact fun hn => ih hn
  exact (key hth).1

/-- **C97 (commands, partial)** Every record command that starts a recording leads to exactly one recording, and a
command is ignored without an error message exactly if the recording thread is busy while no recording is shown as
running: it has not begun yet, or has only the flushing of the file left. Missing: these moments. -/
theorem C97_commands_partial (T : PayloadType P) (hsp : ∀ p, 0 < span T p) (limit : Nat) (toPop : Nat → Nat)
    (fc : File.Cfg) (bytes : P → List Nat) (n : Nat) (hn : 2 ≤ n) (hn2 : n ≤ endIdx) (s : St P)
    (h : Reach T limit toPop fc bytes n s) :
    s.cmds.count .started = s.recs.length + (if s.th = .ready ∨ s.th = .executed then 0 else 1) ∧
    (s.th = .ready → (command s).cmds = s.cmds ++ [.started]) ∧
    (s.th = .flagged ∨ s.th = .running ∨ s.th = .ended → (command s).cmds = s.cmds ++ [.refused]) ∧
    (s.th = .launched ∨ s.th = .unflagged ∨ s.th = .executed → (command s).cmds = s.cmds ++ [.dropped]) := by
  have inv := inv_reach hsp hn hn2 h
  refine ⟨inv.cmds, fun ht => ?_, fun ht => ?_, fun ht => ?_⟩
  · have : s.flag = false := by
      rw [Bool.eq_false_iff]; intro hf
      have := inv.flag.1 hf
      rw [ht] at this; simp at this
    simp [command, this, ht]
  · simp [command, inv.flag.2 ht]
  · have : s.flag = false := by
      rw [Bool.eq_false_iff]; intro hf
      have := inv.flag.1 hf
      rcases ht with ht | ht | ht <;> rw [ht] at this <;> simp at this
    rcases ht with ht | ht | ht <;> simp [command, this, ht]

/-! ### Concrete histories -/

inductive Mv where
  | command | flag | launch | recorded | leave | unflag | flush | done | arrive (p : Nat) | stop

/-- Payloads of one byte, time stamps ten apart. -/
def oneByte : Nat → List Nat := fun p => [p]

def contents (s : St Nat) : List Nat := s.r.all.drop (s.r.all.length - s.r.q.occupancy)

def arrived (s : St Nat) (p : Nat) (q : Ring.Ring Nat) (b : Bool) : Record.St Nat :=
  { s.r with q := q, all := if b then s.r.all ++ [p] else s.r.all }

def mv (fc : File.Cfg) (s : St Nat) : Mv → Option (St Nat)
  | .command => some (command s)
  | .flag => if s.th = .launched then some { s with th := .flagged, flag := true } else none
  | .launch => if s.th = .flagged then some (launch s (contents s)) else none
  | .recorded =>
    if s.th = .running ∧ s.r.left = 0 then
      match recStep demoT s.r with
      | .ok r' => some (recorded fc oneByte s r')
      | _ => none
    else none
  | .leave => if s.th = .running ∧ s.r.pc = .start then some (leave s) else none
  | .unflag => if s.th = .ended then some { s with th := .unflagged, flag := false } else none
  | .flush => if s.th = .unflagged then some (finish fc s) else none
  | .done => if s.th = .executed then some { s with th := .ready } else none
  | .arrive p =>
    if (∀ a ∈ s.r.all, a + 10 ≤ p) ∧ 0 < p then
      match s.r.q.write p with
      | .ok (q, b) => some (other s (arrived s p q b))
      | _ => none
    else none
  | .stop =>
    if (s.th = .ready ∨ s.th = .executed) ∧ s.r.left = 0 then
      match s.r.q.flush with
      | .ok q => some (emptied s q)
      | _ => none
    else none

theorem demo_span : ∀ p, 0 < span demoT p := fun _ => by simp [span, demoT]

theorem contents_repr {s : St Nat} (hb : Base demoT s.r) : Repr s.r.q (contents s) := by
  obtain ⟨⟨l, hr, ⟨t, ht⟩⟩, -, -, -⟩ := hb
  have : contents s = l := by
    unfold contents
    rw [hr.occ, ← ht]
    simp
  rw [this]; exact hr

theorem mv_step {limit : Nat} {toPop : Nat → Nat} {fc : File.Cfg} {n : Nat} (hn : 2 ≤ n) (hn2 : n ≤ endIdx)
    {s s' : St Nat} {m : Mv} (hr : Reach demoT limit toPop fc oneByte n s) (h : mv fc s m = some s') :
    Step demoT limit toPop fc oneByte s s' := by
  cases m <;> simp only [mv] at h
  · injection h with h; subst h; exact .command s
  · split at h
    · next hc => injection h with h; subst h; exact .flag s hc
    · simp at h
  · split at h
    · next hc =>
      injection h with h; subst h
      exact .launch s _ hc (contents_repr (inv_reach demo_span hn hn2 hr).base)
    · simp at h
  · split at h
    · next hc =>
      split at h
      · next r' he => injection h with h; subst h; exact .recorded s r' hc.1 (fun _ => hc.2) he
      · simp at h
    · simp at h
  · split at h
    · next hc => injection h with h; subst h; exact .leave s hc.1 hc.2
    · simp at h
  · split at h
    · next hc => injection h with h; subst h; exact .unflag s hc
    · simp at h
  · split at h
    · next hc => injection h with h; subst h; exact .flush s hc
    · simp at h
  · split at h
    · next hc => injection h with h; subst h; exact .done s hc
    · simp at h
  · next p =>
    split at h
    · next hc =>
      split at h
      · next q b he =>
        injection h with h; subst h
        exact .other s _ (.arrive s.r q p b (fun a ha => by simpa [demoT, span] using hc.1 a ha) hc.2 he) rfl
      · simp at h
    · simp at h
  · split at h
    · next hc =>
      split at h
      · next q he => injection h with h; subst h; exact .stop s q hc.1 hc.2 he
      · simp at h
    · simp at h

def moves (fc : File.Cfg) : St Nat → List Mv → Option (St Nat)
  | s, [] => some s
  | s, m :: ms => match mv fc s m with
    | some s' => moves fc s' ms
    | none => none

theorem reach_moves {limit : Nat} {toPop : Nat → Nat} {fc : File.Cfg} {n : Nat} (hn : 2 ≤ n) (hn2 : n ≤ endIdx)
    (ms : List Mv) {s s' : St Nat} (hr : Reach demoT limit toPop fc oneByte n s) (h : moves fc s ms = some s') :
    Reach demoT limit toPop fc oneByte n s' := by
  induction ms generalizing s with
  | nil => simp only [moves] at h; injection h with h; subst h; exact hr
  | cons m ms ih =>
    simp only [moves] at h
    split at h
    · next s1 e => exact ih (.step _ _ hr (mv_step hn hn2 hr e)) h
    · simp at h

/-- What one can see from outside, and where the thread is. -/
structure View where
  recs : List (Nat × List Nat)
  file : List Nat
  cmds : List Cmd
  th : Th
  hist0 : List Nat
  hist1 : List Nat
  deriving DecidableEq

def view (s : St Nat) : View := ⟨s.recs, s.w.file, s.cmds, s.th, s.hist 0, s.hist 1⟩

theorem moves_view {limit : Nat} {toPop : Nat → Nat} {fc : File.Cfg} {n : Nat} (hn : 2 ≤ n) (hn2 : n ≤ endIdx)
    (ms : List Mv) (v : View) (h : (moves fc (St.init n fc) ms).map view = some v) :
    ∃ s, Reach demoT limit toPop fc oneByte n s ∧ view s = v := by
  cases e : moves fc (St.init n fc) ms with
  | none => rw [e] at h; simp at h
  | some s => rw [e] at h; simp at h; exact ⟨s, reach_moves hn hn2 ms .init e, h⟩

def recMoves (k : Nat) : List Mv :=
  [.flag, .launch] ++ List.replicate k .recorded ++ [.leave, .unflag, .flush, .done]

/-- Non-vacuity for C97_file_partial and C97_commands_partial: a recording in each of two runs. -/
example : ∃ s, Reach demoT 2 (fun n => n * 4 / 5) ⟨4, false, 4, false⟩ oneByte 4 s ∧
    Fit ⟨4, false, 4, false⟩ oneByte s.recs ∧
    view s = ⟨[(0, [10, 20]), (1, [30, 40])], [10, 20, 30, 40], [.started, .started], .ready, [10, 20], [30, 40]⟩ := by
  obtain ⟨s, h, v⟩ := moves_view (limit := 2) (toPop := fun n => n * 4 / 5) (fc := ⟨4, false, 4, false⟩) (n := 4)
    (by decide) (by decide)
    ([.arrive 10, .arrive 20, .command] ++ recMoves 7 ++ [.stop, .arrive 30, .arrive 40, .command] ++ recMoves 7)
    ⟨[(0, [10, 20]), (1, [30, 40])], [10, 20, 30, 40], [.started, .started], .ready, [10, 20], [30, 40]⟩
    (by decide +kernel)
  exact ⟨s, h, .inl rfl, v⟩

/-- **C97, negative part (1)**: two record commands one after the other in a run put the same payloads into the file
twice: each recording begins with the oldest payload still stored. -/
theorem C97_repeated_counterexample :
    ∃ s, Reach demoT 2 (fun n => n * 4 / 5) ⟨4, false, 4, false⟩ oneByte 4 s ∧
      view s = ⟨[(0, [10, 20]), (0, [10, 20])], [10, 20, 10, 20], [.started, .started], .ready, [10, 20], []⟩ :=
  moves_view (by decide) (by decide)
    ([.arrive 10, .arrive 20, .command] ++ recMoves 7 ++ [.command] ++ recMoves 7) _ (by decide +kernel)

/-- **C97, negative part (2)**: a record command given when the recording before is no longer shown as running is lost
without any message if the file is still being flushed; so is a second command before the thread has begun. -/
theorem C97_dropped_counterexample :
    ∃ s, Reach demoT 2 (fun n => n * 4 / 5) ⟨4, false, 4, false⟩ oneByte 4 s ∧
      view s = ⟨[(0, [10])], [10], [.started, .dropped, .dropped], .ready, [10], []⟩ :=
  moves_view (by decide) (by decide)
    ([.arrive 10, .command, .command, .flag, .launch] ++ List.replicate 5 .recorded ++
      [.leave, .unflag, .command, .flush, .done]) _ (by decide +kernel)

/-- **C97, negative part (3)**: with O_DIRECT, after a recording whose length is no multiple of the block size the next
one is lost: the recording is made, and nothing of it gets into the file. -/
theorem C97_direct_counterexample :
    ∃ s, Reach demoT 2 (fun n => n * 4 / 5) ⟨2, true, 2, false⟩ oneByte 6 s ∧
      view s = ⟨[(0, [10]), (0, [10, 20, 30])], [10], [.started, .started], .ready, [10, 20, 30], []⟩ :=
  moves_view (by decide) (by decide)
    ([.arrive 10, .command] ++ recMoves 5 ++ [.arrive 20, .arrive 30, .command] ++ recMoves 9) _ (by decide +kernel)

end Verif.RecSess
