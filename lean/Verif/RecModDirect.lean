import Verif.RecModProps
/- Property C101 with O_DIRECT: the files of the recorder module over its whole life, whatever the configurations. -/
namespace Verif.RecMod

/-! ### Specification vocabulary -/

/-- The same files in the same order, the contents of each being a beginning of what it ought to hold. -/
def Below : List (String × List Nat) → List (String × List Nat) → Prop
  | [], [] => True
  | x :: xs, y :: ys => x.1 = y.1 ∧ x.2 <+: y.2 ∧ Below xs ys
  | _, _ => False

/-! ### Lemmas -/

/-- What holds of a writer on a fresh file given `data`, whatever the configuration. -/
structure Sane (c : File.Cfg) (data : List Nat) (w : File.W) : Prop where
  opn : w.isOpen = true
  off : w.off = w.file.length
  pre : w.file ++ w.buf <+: data
  all : w.bad = false → w.file ++ w.buf = data
  lost : w.bad = true → (w.file ++ w.buf).length < data.length
  cap : c.cap = 0 → w.buf = []

theorem pwrite_end (l b : List Nat) : File.pwrite l l.length b = l ++ b := by
  unfold File.pwrite
  rw [List.take_length, List.drop_eq_nil_of_le (by omega)]; simp

theorem sane_open (c : File.Cfg) : Sane c [] (File.openW c []) :=
  ⟨rfl, rfl, List.prefix_refl _, fun _ => rfl, by simp [File.openW], fun _ => rfl⟩

theorem sane_putc {c : File.Cfg} {data : List Nat} {w : File.W} (h : Sane c data w) (hb : w.bad = false) (x : Nat) :
    Sane c (data ++ [x]) (File.putc c w x) := by
  have ha := h.all hb
  unfold File.putc
  by_cases hc : c.cap = 0
  · rw [if_pos hc]
    have hbuf := h.cap hc
    rw [hbuf, List.append_nil] at ha
    unfold File.fdWrite
    split
    · rename_i hx
      refine ⟨h.opn, h.off, ?_, by simp, ?_, fun _ => hbuf⟩
      · show w.file ++ w.buf <+: _
        rw [hbuf, List.append_nil, ha]; exact ⟨[x], rfl⟩
      · intro _
        show (w.file ++ w.buf).length < _
        rw [hbuf, List.append_nil, ha]; simp
    · rename_i w' hx
      split at hx
      · cases hx
      · simp only [Option.some.injEq] at hx
        subst hx
        have e : File.pwrite w.file w.off [x] = data ++ [x] := by rw [h.off, pwrite_end, ha]
        refine ⟨h.opn, ?_, ?_, fun _ => ?_, fun hx => ?_, fun _ => hbuf⟩
        · show w.off + 1 = (File.pwrite w.file w.off [x]).length
          rw [e, h.off, ha]; simp
        · show File.pwrite w.file w.off [x] ++ w.buf <+: _
          rw [e, hbuf, List.append_nil]; exact List.prefix_refl _
        · show File.pwrite w.file w.off [x] ++ w.buf = _
          rw [e, hbuf, List.append_nil]
        · simp only [hb] at hx; cases hx
  · rw [if_neg hc]
    simp only
    by_cases hl : w.buf.length = c.cap
    · rw [if_pos hl]
      unfold File.sync File.fdWrite
      by_cases hd : w.direct = true ∧ (w.buf.length % c.align ≠ 0 ∨ w.off % c.align ≠ 0)
      · simp only [if_pos hd, if_true]
        refine ⟨h.opn, h.off, ?_, by simp, ?_, fun h0 => absurd h0 hc⟩
        · show w.file ++ w.buf <+: _
          rw [ha]; exact ⟨[x], rfl⟩
        · intro _
          show (w.file ++ w.buf).length < _
          rw [ha]; simp
      · simp only [if_neg hd, hb]
        have e : File.pwrite w.file w.off w.buf = data := by rw [h.off, pwrite_end, ha]
        rw [if_neg (by simp), e]
        refine ⟨h.opn, ?_, ?_, fun _ => rfl, by intro hx; simp at hx, fun h0 => absurd h0 hc⟩
        · show w.off + w.buf.length = data.length
          rw [h.off, ← ha]; simp
        · exact List.prefix_refl _
    · rw [if_neg hl, if_neg (by simp [hb])]
      refine ⟨h.opn, h.off, ?_, fun _ => ?_, fun hx => ?_, fun h0 => absurd h0 hc⟩
      · show w.file ++ (w.buf ++ [x]) <+: _
        rw [← List.append_assoc, ha]; exact List.prefix_refl _
      · show w.file ++ (w.buf ++ [x]) = _
        rw [← List.append_assoc, ha]
      · simp only [hb] at hx; cases hx

theorem sane_more {c : File.Cfg} {data : List Nat} {w : File.W} (h : Sane c data w) (hb : w.bad = true) (l : List Nat) :
    Sane c (data ++ l) w :=
  ⟨h.opn, h.off, h.pre.trans ⟨l, rfl⟩, by simp [hb], fun hx => by have := h.lost hx; simp only [List.length_append] at this ⊢; omega,
    h.cap⟩

theorem sane_puts {c : File.Cfg} (xs : List Nat) {data : List Nat} {w : File.W} (h : Sane c data w) :
    Sane c (data ++ xs) (File.puts c w xs) := by
  induction xs generalizing data w with
  | nil => simpa [File.puts] using h
  | cons x xs ih =>
    unfold File.puts
    by_cases hb : w.bad = true
    · rw [if_pos hb]; exact sane_more h hb _
    · rw [if_neg hb]
      have := ih (sane_putc h (by simpa using hb) x)
      simpa using this

theorem sane_write {c : File.Cfg} (b : List Nat) {data : List Nat} {w : File.W} (h : Sane c data w) :
    Sane c (data ++ b) (File.write c w b).1 := by
  unfold File.write
  rw [if_neg (by simp [h.opn])]
  exact sane_puts b h

theorem sane_flush {c : File.Cfg} {data : List Nat} {w : File.W} (h : Sane c data w) :
    Sane c data (File.flush c w) ∧ ((File.flush c w).bad = false → (File.flush c w).buf = []) := by
  unfold File.flush
  simp only
  by_cases hb : w.bad = true ∧ c.syncBad = false
  · rw [if_pos hb]
    exact ⟨⟨h.opn, h.off, h.pre, h.all, h.lost, h.cap⟩, fun hx => absurd (hb.1.symm.trans hx) (by simp)⟩
  · rw [if_neg hb]
    simp only [File.sync, File.fdWrite, Bool.false_eq_true, false_and, if_false]
    have e : File.pwrite w.file w.off w.buf = w.file ++ w.buf := by rw [h.off, pwrite_end]
    rw [e]
    refine ⟨⟨h.opn, ?_, ?_, fun hx => ?_, fun hx => ?_, fun _ => rfl⟩, by simp⟩
    · show w.off + w.buf.length = (w.file ++ w.buf).length
      rw [h.off]; simp
    · simpa using h.pre
    · simpa using h.all hx
    · simpa using h.lost hx

theorem close_sane {c : File.Cfg} {data : List Nat} {w : File.W} (h : Sane c data w) :
    (File.close c w).file = w.file ++ w.buf := by
  simp only [File.close, File.sync, File.fdWrite, Bool.false_eq_true, false_and, if_false]
  rw [h.off, pwrite_end]

theorem below_filter (f : String) : ∀ {l l' : List (String × List Nat)}, Below l l' →
    Below (l.filter (fun p => p.1 ≠ f)) (l'.filter (fun p => p.1 ≠ f))
  | [], [], _ => trivial
  | x :: xs, y :: ys, ⟨h1, h2, h3⟩ => by
    have ih := below_filter f h3
    simp only [List.filter_cons, h1]
    split
    · exact ⟨h1, h2, ih⟩
    · exact ih

theorem below_snoc (f : String) {c c' : List Nat} (hc : c <+: c') : ∀ {l l' : List (String × List Nat)}, Below l l' →
    Below (l ++ [(f, c)]) (l' ++ [(f, c')])
  | [], [], _ => ⟨rfl, hc, trivial⟩
  | _ :: _, _ :: _, ⟨h1, h2, h3⟩ => ⟨h1, h2, below_snoc f hc h3⟩

theorem filter_self (f : String) (l : List (String × List Nat)) :
    (l.filter (fun p => p.1 ≠ f)).filter (fun p => p.1 ≠ f) = l.filter (fun p => p.1 ≠ f) := by
  rw [List.filter_filter]; simp

/-- What is known of the files, whatever the configurations. -/
structure Held (s : St) (pre : List (List Nat)) (l : List (String × Nat)) (f : String) (a : Nat) : Prop where
  confs : s.confs = l ++ [(f, a)]
  name : s.name = f
  before : ∀ c ∈ l, c.2 ≤ a
  le : a ≤ pre.length
  disk : Below s.disk ((files s.sent a l).filter (fun p => p.1 ≠ f))
  w : Sane s.cfg (pre.drop a).flatten s.w
  flushed : s.job = .done → s.w.bad = false → s.w.buf = []

/-- The packets given to the writer. -/
def St.given (s : St) : List (List Nat) := s.sent.take (s.sent.length - (s.queue.length + s.job.held.length))

theorem Inv.given {sp : Bool} {s : St} {pre : List (List Nat)} (h : Inv sp s pre) : s.given = pre := by
  unfold St.given
  have hl : s.sent.length - (s.queue.length + s.job.held.length) = pre.length := by rw [h.sent]; simp; omega
  rw [hl, h.sent, List.append_assoc, List.take_left]

theorem Held.same {s s' : St} {l f a} (h : Held s s.given l f a) (h1 : s'.confs = s.confs) (h2 : s'.name = s.name)
    (h3 : s'.cfg = s.cfg) (h4 : s'.disk = s.disk) (h5 : s'.sent = s.sent) (h6 : s'.w = s.w)
    (h7 : s'.job = .done → s.job = .done) (h8 : s'.queue.length + s'.job.held.length = s.queue.length + s.job.held.length) :
    ∃ l f a, Held s' s'.given l f a := by
  have hg : s'.given = s.given := by unfold St.given; rw [h5, h8]
  exact ⟨l, f, a, h1.trans h.confs, h2.trans h.name, h.before, hg ▸ h.le, by rw [h4, h5]; exact h.disk,
    by rw [h3, h6, hg]; exact h.w, fun hj => by rw [h6]; exact h.flushed (h7 hj)⟩

theorem held_step {sp : Bool} {s s' : St} {pre : List (List Nat)} (h : Inv sp s pre)
    (ih : s.confs ≠ [] → ∃ l f a, Held s s.given l f a) (st : Step sp s s') :
    s'.confs ≠ [] → ∃ l f a, Held s' s'.given l f a := by
  have htk := h.taken
  cases st with
  | send b =>
    intro hc
    obtain ⟨l, f, a, hs⟩ := ih hc
    have hl : s.sent.length = pre.length + s.job.held.length + s.queue.length := by rw [h.sent]; simp; omega
    have hg := h.given
    have hle := hs.le
    have hg' : ({ s with queue := s.queue ++ [b], sent := s.sent ++ [b] } : St).given = s.given := by
      unfold St.given
      simp only [List.length_append, List.length_cons, List.length_nil]
      have : s.sent.length + (0 + 1) - (s.queue.length + (0 + 1) + s.job.held.length) =
        s.sent.length - (s.queue.length + s.job.held.length) := by omega
      rw [this, List.take_append_of_le_length (Nat.sub_le _ _)]
    refine ⟨l, f, a, hs.confs, hs.name, hs.before, by rw [hg']; exact hs.le, ?_, by rw [hg']; exact hs.w, hs.flushed⟩
    show Below s.disk ((files (s.sent ++ [b]) a l).filter _)
    rw [files_grow b (by rw [hg] at hle; omega) l hs.before]
    exact hs.disk
  | conf c f hn hr =>
    intro _
    have he := h.rest ⟨hn, hr⟩
    have hj := h.ready he
    rw [hj] at htk
    simp only [Job.held, List.length_nil, Nat.add_zero] at htk
    have hg := h.given
    have hg' : (confCmd s c f).given = pre := hg
    have hw : Sane c (pre.drop pre.length).flatten (File.openW c []) := by simpa using sane_open c
    by_cases hc : s.confs = []
    · obtain ⟨h1, h2⟩ := h.none hc
      refine ⟨[], f, pre.length, by simp [confCmd, hc, htk], rfl, by simp, by rw [hg']; exact Nat.le_refl _, ?_,
        by rw [hg']; exact hw, fun _ _ => rfl⟩
      simp [confCmd, h1, h2, files, Below]
    · obtain ⟨l, g, a, hs⟩ := ih hc
      rw [hg] at hs
      refine ⟨s.confs, f, pre.length, by simp [confCmd, htk], rfl, ?_, by rw [hg']; exact Nat.le_refl _, ?_,
        by rw [hg']; exact hw, fun _ _ => rfl⟩
      · intro x hx
        rw [hs.confs] at hx
        have := hs.le
        rcases List.mem_append.1 hx with hx | hx
        · have := hs.before x hx; omega
        · simp at hx; subst hx; exact this
      · have hcl := close_sane hs.w
        have hseg : segment s.sent a pre.length = (pre.drop a).flatten := by
          unfold segment
          rw [h.sent, List.append_assoc, List.take_append_of_le_length (Nat.le_refl _), List.take_length]
        show Below (confCmd s c f).disk ((files s.sent pre.length s.confs).filter _)
        rw [hs.confs, files_append, List.filter_append]
        have hb := below_filter f hs.disk
        simp only [confCmd, hs.w.opn, true_and, hcl, hs.name]
        by_cases hgf : g = f
        · simpa [hgf] using hb
        · have := below_snoc g (hseg ▸ hs.w.pre) hb
          simpa [hgf] using this
  | start hn hr hc => intro hc; obtain ⟨l, f, a, hs⟩ := ih hc; exact hs.same rfl rfl rfl rfl rfl rfl id rfl
  | arm id t' hz ht hc hi => intro hc; obtain ⟨l, f, a, hs⟩ := ih hc; exact hs.same rfl rfl rfl rfl rfl rfl (fun x => x) rfl
  | started hc hi => intro hc; obtain ⟨l, f, a, hs⟩ := ih hc; exact hs.same rfl rfl rfl rfl rfl rfl (fun x => x) rfl
  | stop hn hr => intro hc; obtain ⟨l, f, a, hs⟩ := ih hc; exact hs.same rfl rfl rfl rfl rfl rfl (fun x => x) rfl
  | stopped hp he => intro hc; obtain ⟨l, f, a, hs⟩ := ih hc; exact hs.same rfl rfl rfl rfl rfl rfl (fun x => x) rfl
  | thread t' ht h1 h2 h3 => intro hc; obtain ⟨l, f, a, hs⟩ := ih hc; exact hs.same rfl rfl rfl rfl rfl rfl (fun x => x) rfl
  | enter t' id ht h1 =>
    intro hc
    obtain ⟨l, f, a, hs⟩ := ih hc
    have hw := thr_enter ht h1
    have hj : s.job = .done := by
      by_cases hj : s.job = .done
      · exact hj
      · obtain ⟨i, hi⟩ := h.job hj; rw [hw.1] at hi; cases hi
    exact hs.same rfl rfl rfl rfl rfl rfl (fun _ => hj) (by simp [hj, Job.held])
  | stamp hj => intro hc; obtain ⟨l, f, a, hs⟩ := ih hc; exact hs.same rfl rfl rfl rfl rfl rfl (by simp) (by simp [hj, Job.held])
  | again hj hm => intro hc; obtain ⟨l, f, a, hs⟩ := ih hc; exact hs.same rfl rfl rfl rfl rfl rfl (by simp) (by simp [hj, Job.held])
  | leave hj hm => intro hc; obtain ⟨l, f, a, hs⟩ := ih hc; exact hs.same rfl rfl rfl rfl rfl rfl (by simp) (by simp [hj, Job.held])
  | timeout hj hq => intro hc; obtain ⟨l, f, a, hs⟩ := ih hc; exact hs.same rfl rfl rfl rfl rfl rfl (by simp) (by simp [hj, Job.held])
  | pop b q hj hq =>
    intro hc; obtain ⟨l, f, a, hs⟩ := ih hc
    exact hs.same rfl rfl rfl rfl rfl rfl (by simp) (by simp [hj, hq, Job.held])
  | count b hj => intro hc; obtain ⟨l, f, a, hs⟩ := ih hc; exact hs.same rfl rfl rfl rfl rfl rfl (by simp) (by simp [hj, Job.held])
  | count2 b hj => intro hc; obtain ⟨l, f, a, hs⟩ := ih hc; exact hs.same rfl rfl rfl rfl rfl rfl (by simp) (by simp [hj, Job.held])
  | write b hj =>
    intro hc
    obtain ⟨l, f, a, hs⟩ := ih hc
    have hne : (writeStep s b).job ≠ .done := by simp only [writeStep]; split <;> simp
    have hheld : (writeStep s b).job.held = [] := by simp only [writeStep]; split <;> rfl
    have hg := h.given
    rw [hg] at hs
    have hg' : (writeStep s b).given = pre ++ [b] := by
      unfold St.given
      rw [hheld]
      show s.sent.take (s.sent.length - (s.queue.length + 0)) = _
      have hsent := h.sent
      rw [hj] at hsent
      simp only [Job.held] at hsent
      have hl : s.sent.length - (s.queue.length + 0) = (pre ++ [b]).length := by rw [hsent]; simp; omega
      rw [hl, hsent, List.take_left]
    refine ⟨l, f, a, hs.confs, hs.name, hs.before, by have := hs.le; rw [hg', List.length_append]; omega, hs.disk, ?_,
      fun hx => absurd hx hne⟩
    rw [hg', List.drop_append_of_le_length hs.le]
    have := sane_write b hs.w
    simpa [writeStep] using this
  | flush hj =>
    intro hc
    obtain ⟨l, f, a, hs⟩ := ih hc
    obtain ⟨f1, f2⟩ := sane_flush hs.w
    have hg' : ({ s with job := .done, w := File.flush s.cfg s.w } : St).given = s.given := by
      unfold St.given; simp [hj, Job.held]
    exact ⟨l, f, a, hs.confs, hs.name, hs.before, by rw [hg']; exact hs.le, hs.disk, by rw [hg']; exact f1, fun _ => f2⟩
  | «return» t' id hj ht h1 => intro hc; obtain ⟨l, f, a, hs⟩ := ih hc; exact hs.same rfl rfl rfl rfl rfl rfl (fun x => x) rfl
  | report hn => intro hc; obtain ⟨l, f, a, hs⟩ := ih hc; exact hs.same rfl rfl rfl rfl rfl rfl (fun x => x) rfl
  | tell hn => intro hc; obtain ⟨l, f, a, hs⟩ := ih hc; exact hs.same rfl rfl rfl rfl rfl rfl (fun x => x) rfl
  | zero v hn => intro hc; obtain ⟨l, f, a, hs⟩ := ih hc; exact hs.same rfl rfl rfl rfl rfl rfl (fun x => x) rfl
  | reported hn => intro hc; obtain ⟨l, f, a, hs⟩ := ih hc; exact hs.same rfl rfl rfl rfl rfl rfl (fun x => x) rfl

theorem held_reach {sp : Bool} {s : St} (h : Reach sp s) (hc : s.confs ≠ []) : ∃ l f a, Held s s.given l f a := by
  induction h with
  | init => simp [St.init] at hc
  | step s s' hr st ih =>
    obtain ⟨pre, hi⟩ := inv_reach hr
    exact held_step hi ih st hc

/-! ### A concrete execution -/

/-- O_DIRECT with a buffer of two bytes and an alignment of four. -/
def tight : File.Cfg := ⟨2, true, 4, false⟩

/-- After conf and start, the worker inside `do_work`. -/
def begunD : St :=
  ⟨⟨false, true, false, false, some 1, .running 1, .idle, [1], [1], [], some true⟩, true, .stamp, [],
    File.openW tight [], tight, "a", [], 0, 0, .none, .none, true, [], [("a", 0)], 0, true, []⟩

theorem begunD_reach : Reach false begunD := by
  have r1 := Reach.step _ _ (Reach.init (sp := false)) (.conf _ tight "a" rfl rfl)
  have r2 := Reach.step _ _ r1 (.start _ rfl rfl (by simp [confCmd]))
  have r3 := Reach.step _ _ r2 (.arm _ 1 _ rfl (.cCall _ 1 rfl) rfl rfl)
  have r4 := Reach.step _ _ r3 (.thread _ _ (.cChk _ 1 rfl) rfl rfl (Or.inr (by simp)))
  have r5 := Reach.step _ _ r4 (.thread _ _ (.cXchg _ 1 rfl) rfl rfl (Or.inr (by simp [confCmd, St.init, Thread.init])))
  have r6 := Reach.step _ _ r5 (.thread _ _ (.cBind _ 1 rfl) rfl rfl (Or.inr (by simp [confCmd, St.init, Thread.init])))
  have r7 := Reach.step _ _ r6 (.thread _ _ (.cAssign _ rfl) rfl rfl (Or.inr (by simp)))
  have r8 := Reach.step _ _ r7 (.thread _ _ (.cNotify _ rfl) rfl rfl (Or.inr (by simp)))
  have r9 := Reach.step _ _ r8 (.started _ rfl rfl)
  have r10 := Reach.step _ _ r9 (.thread _ _ (.wTop _ rfl) rfl rfl (Or.inl rfl))
  have r11 := Reach.step _ _ r10 (.thread _ _ (.wRdE _ rfl) rfl rfl (Or.inl rfl))
  have r12 := Reach.step _ _ r11 (.thread _ _ (.wRdA _ rfl) rfl rfl (Or.inl rfl))
  exact Reach.step _ _ r12 (.enter _ _ 1 (.wExec _ 1 rfl rfl) rfl)

/-- The packet `[1, 2, 3]` has been taken, its write has failed, the run has been stopped and a new file "b" has been
configured: "a" holds `[1, 2]`. -/
def brokenD : St :=
  ⟨⟨true, true, false, false, some 1, .setA, .idle, [1], [1], [1], some true⟩, false, .done, [],
    File.openW tight [], tight, "b", [("a", [1, 2])], 1, 1, .none, .none, false, [[1, 2, 3]], [("a", 0), ("b", 1)], 0,
    true, []⟩

theorem brokenD_reach : Reach false brokenD := by
  have r1 := Reach.step _ _ begunD_reach (.stamp _ rfl)
  have r2 := Reach.step _ _ r1 (.send _ [1, 2, 3])
  have r3 := Reach.step _ _ r2 (.again _ rfl rfl)
  have r4 := Reach.step _ _ r3 (.pop _ [1, 2, 3] [] rfl rfl)
  have r6 := Reach.step _ _ r4 (.count _ _ rfl)
  have r7 := Reach.step _ _ r6 (.count2 _ _ rfl)
  have r8 := Reach.step _ _ r7 (.write _ _ rfl)
  have r9 := Reach.step _ _ r8 (.stop _ rfl rfl)
  have r11 := Reach.step _ _ r9 (.flush _ rfl)
  have r12 := Reach.step _ _ r11 (.return _ _ 1 rfl (.wReturn _ 1 rfl) rfl)
  have r13 := Reach.step _ _ r12 (.thread _ _ (.wSetE _ rfl) rfl rfl (Or.inl rfl))
  have r14 := Reach.step _ _ r13 (.stopped _ rfl rfl)
  exact Reach.step _ _ r14 (.conf _ tight "b" rfl rfl)

/-! ### Property C101 with O_DIRECT -/

/-- **C101 (files, any configuration)** In every execution, O_DIRECT or not and whatever the size of the writer's buffer:
every file of a conf exists unless a later conf named it again, and what it holds, together with the buffer for the
current one, is a beginning of the packets taken between its conf and the next: no byte is in the wrong file, out of
order, twice or made up. The current file is complete, up to the packet being handled, exactly if the stream has not
failed, and then between runs nothing is left in the buffer. -/
theorem C101_direct (sp : Bool) (s : St) (h : Reach sp s) (hc : s.confs ≠ []) :
    ∃ k a, k ≤ s.taken ∧ s.taken ≤ k + 1 ∧ (s.resting → k = s.taken) ∧ s.confs.getLast? = some (s.name, a) ∧
      Below (s.disk ++ [(s.name, s.w.file ++ s.w.buf)]) (files s.sent k s.confs) ∧
      (s.w.file ++ s.w.buf = segment s.sent a k ↔ s.w.bad = false) ∧
      (s.resting → s.w.bad = false → s.w.file = segment s.sent a s.taken) := by
  obtain ⟨pre, inv⟩ := inv_reach h
  obtain ⟨l, f, a, hs⟩ := held_reach h hc
  rw [inv.given] at hs
  have ht := inv.taken
  have hh : s.job.held.length ≤ 1 := by cases s.job <;> simp [Job.held]
  have hseg : segment s.sent a pre.length = (pre.drop a).flatten := by
    unfold segment
    rw [inv.sent, List.append_assoc, List.take_append_of_le_length (Nat.le_refl _), List.take_length]
  have hk : s.resting → pre.length = s.taken := by
    intro hr
    rw [inv.ready (inv.rest hr)] at ht
    simpa [Job.held] using ht.symm
  refine ⟨pre.length, a, by omega, by omega, hk, by rw [hs.confs, hs.name]; simp, ?_, ?_, ?_⟩
  · rw [hs.confs, files_append, hs.name, hseg]
    exact below_snoc f hs.w.pre hs.disk
  · rw [hseg]
    constructor
    · intro he
      cases hb : s.w.bad with
      | false => rfl
      | true => have := hs.w.lost hb; rw [he] at this; omega
    · exact hs.w.all
  · intro hr hb
    have := hs.w.all hb
    rw [hs.flushed (inv.ready (inv.rest hr)) hb, List.append_nil] at this
    rw [this, ← hk hr, hseg]

/-- Non-vacuity: a run with O_DIRECT that lost the end of a packet, followed by another conf. -/
example : ∃ s, Reach false s ∧ s.confs ≠ [] ∧ s.resting ∧ s.disk = [("a", [1, 2])] ∧
    files s.sent s.taken s.confs = [("a", [1, 2, 3]), ("b", [])] :=
  ⟨_, brokenD_reach, by simp [brokenD], ⟨rfl, rfl⟩, rfl, rfl⟩

end Verif.RecMod
