import Verif.RecModModel
import Verif.FileProps
import Verif.ThreadProps
/- Property C101: the recorder module over its whole life. -/
namespace Verif.RecMod

/-! ### Specification vocabulary -/

/-- The bytes of the packets number `a` to `b - 1` sent to the recorder. -/
def segment (sent : List (List Nat)) (a b : Nat) : List Nat := ((sent.take b).drop a).flatten

/-- Where the packets of a file end: at the next conf, or at `n`. -/
def upTo (n : Nat) : List (String × Nat) → Nat
  | [] => n
  | (_, b) :: _ => b

/-- The files that exist after the confs `cs` (file name, packets taken before it) once `n` packets have been taken: a
file holds the packets taken between its conf and the next one; it is gone if a later conf has the same name. -/
def files (sent : List (List Nat)) (n : Nat) : List (String × Nat) → List (String × List Nat)
  | [] => []
  | (f, a) :: cs =>
    if cs.any (fun c => c.1 = f) then files sent n cs else (f, segment sent a (upTo n cs)) :: files sent n cs

/-- Between runs: no command is being executed and the last of start and stop was stop. -/
def St.resting (s : St) : Prop := s.cmd = .none ∧ s.inRun = false

/-! ### Lemmas -/

/-- A packet popped but not yet written. -/
def Job.held : Job → List (List Nat)
  | .got b => [b]
  | .counted b => [b]
  | .ready b => [b]
  | _ => []

/-- A packet popped but not yet counted. -/
def Job.uncounted : Job → Nat
  | .got _ => 1
  | _ => 0

/-- A packet popped but not yet counted as new. -/
def Job.unsaid : Job → Nat
  | .got _ => 1
  | .counted _ => 1
  | _ => 0

theorem files_append (sent : List (List Nat)) (u n : Nat) (f : String) (l : List (String × Nat)) :
    files sent n (l ++ [(f, u)]) = (files sent u l).filter (fun p => p.1 ≠ f) ++ [(f, segment sent u n)] := by
  induction l with
  | nil => simp [files, upTo]
  | cons c l ih =>
    obtain ⟨g, a⟩ := c
    have hb : upTo n (l ++ [(f, u)]) = upTo u l := by cases l <;> rfl
    rw [List.cons_append, files, files, hb, ih]
    simp only [List.any_append, List.any_cons, List.any_nil, Bool.or_false, Bool.or_eq_true, decide_eq_true_eq]
    by_cases h1 : l.any (fun c => c.1 = g) = true
    · simp [h1]
    · by_cases h2 : f = g
      · subst h2; simp [h1]
      · have h3 : g ≠ f := fun h => h2 h.symm
        simp [h1, h2, h3]

theorem segment_grow {sent : List (List Nat)} {a b : Nat} (x : List Nat) (h : b ≤ sent.length) :
    segment (sent ++ [x]) a b = segment sent a b := by
  unfold segment
  rw [List.take_append_of_le_length h]

theorem files_grow {sent : List (List Nat)} {n : Nat} (x : List Nat) (h : n ≤ sent.length) (l : List (String × Nat))
    (hl : ∀ c ∈ l, c.2 ≤ n) : files (sent ++ [x]) n l = files sent n l := by
  induction l with
  | nil => rfl
  | cons c l ih =>
    obtain ⟨g, a⟩ := c
    rw [files, files, ih (fun c hc => hl c (by simp [hc]))]
    have hb : upTo n l ≤ n := by
      cases l with
      | nil => exact Nat.le_refl _
      | cons d l => exact hl d (by simp)
    rw [segment_grow x (Nat.le_trans hb h)]

/-- What is known of the files as long as O_DIRECT is not used. `pre`: the packets given to the writer. -/
structure Stored (s : St) (pre : List (List Nat)) (l : List (String × Nat)) (f : String) (a : Nat) : Prop where
  confs : s.confs = l ++ [(f, a)]
  name : s.name = f
  before : ∀ c ∈ l, c.2 ≤ a
  le : a ≤ pre.length
  cfg : s.cfg.useDirect = false
  disk : s.disk = (files s.sent a l).filter (fun p => p.1 ≠ f)
  w : File.Inv s.cfg [] (pre.drop a).flatten s.w
  flushed : s.job = .done → s.w.file = (pre.drop a).flatten

structure Inv (sp : Bool) (s : St) (pre : List (List Nat)) : Prop where
  thr : Thread.Reach sp s.t
  job : s.job ≠ .done → ∃ id, s.t.w = .running id
  rest : s.resting → s.t.executed = true
  zeroed : s.cmd = .zeroed → s.t.executed = true
  idle : s.cmd ≠ .calling → s.t.c = .idle
  run : s.cmd = .zeroed ∨ s.cmd = .calling → s.inRun = true
  sent : s.sent = pre ++ s.job.held ++ s.queue
  total : s.total + s.job.uncounted + s.base = s.taken
  none : s.confs = [] → s.disk = [] ∧ s.w.isOpen = false
  stored : s.direct = false → s.confs ≠ [] → ∃ l f a, Stored s pre l f a
  said : match s.rep with
    | .told v => v ≤ s.since ∧ s.reports.sum + (s.since - v) + s.job.unsaid ≤ s.taken
    | _ => s.reports.sum + s.since + s.job.unsaid ≤ s.taken

theorem Inv.taken {sp : Bool} {s : St} {pre : List (List Nat)} (h : Inv sp s pre) :
    s.taken = pre.length + s.job.held.length := by
  unfold St.taken; rw [h.sent]; simp; omega

/-- A ready thread is not inside the task. -/
theorem Inv.ready {sp : Bool} {s : St} {pre : List (List Nat)} (h : Inv sp s pre) (he : s.t.executed = true) :
    s.job = .done := by
  by_cases hj : s.job = .done
  · exact hj
  · obtain ⟨id, hw⟩ := h.job hj
    have := (Thread.inv_reach h.thr).2.2
    rw [hw] at this
    simp [he] at this

theorem Stored.same {s s' : St} {pre : List (List Nat)} {l f a} (h : Stored s pre l f a) (h1 : s'.confs = s.confs)
    (h2 : s'.name = s.name) (h3 : s'.cfg = s.cfg) (h4 : s'.disk = s.disk) (h5 : s'.sent = s.sent) (h6 : s'.w = s.w)
    (h7 : s'.job = .done → s.job = .done) : Stored s' pre l f a :=
  ⟨h1.trans h.confs, h2.trans h.name, h.before, h.le, by rw [h3]; exact h.cfg, by rw [h4, h5]; exact h.disk,
    by rw [h3, h6]; exact h.w, fun hj => by rw [h6]; exact h.flushed (h7 hj)⟩

theorem keep {sp : Bool} {s s' : St} {pre : List (List Nat)} (h : Inv sp s pre) (h0 : s'.direct = s.direct)
    (h1 : s'.confs = s.confs) (h2 : s'.name = s.name) (h3 : s'.cfg = s.cfg) (h4 : s'.disk = s.disk)
    (h5 : s'.sent = s.sent) (h6 : s'.w = s.w) (h7 : s'.job = .done → s.job = .done) :
    s'.direct = false → s'.confs ≠ [] → ∃ l f a, Stored s' pre l f a := by
  intro hd hc
  obtain ⟨l, f, a, hs⟩ := h.stored (h0 ▸ hd) (h1 ▸ hc)
  exact ⟨l, f, a, hs.same h1 h2 h3 h4 h5 h6 h7⟩

/-- A step of `do_work` that does not concern a packet. -/
theorem inside {sp : Bool} {s : St} {pre : List (List Nat)} (h : Inv sp s pre) {j j' : Job} (hj : s.job = j)
    (h1 : j'.held = j.held) (h2 : j'.uncounted = j.uncounted) (h3 : j'.unsaid = j.unsaid) (hn : j ≠ .done ∧ j' ≠ .done) :
    Inv sp { s with job := j' } pre := by
  subst hj
  refine ⟨h.thr, fun _ => h.job hn.1, h.rest, h.zeroed, h.idle, h.run, by rw [h1]; exact h.sent,
    by rw [h2]; exact h.total, h.none, keep h rfl rfl rfl rfl rfl rfl rfl (fun x => absurd x hn.2), ?_⟩
  have := h.said
  rw [h3]; exact this

theorem thr_enter {sp : Bool} {t t' : Thread.St} {id : Nat} (st : Thread.Step sp t t')
    (h : t'.started = t.started ++ [id]) :
    t.w = .exec ∧ t'.w = .running id ∧ t'.executed = t.executed ∧ t'.c = t.c := by
  cases st <;> (try split at h) <;> simp_all

theorem thr_return {sp : Bool} {t t' : Thread.St} {id : Nat} (st : Thread.Step sp t t')
    (h : t'.finished = t.finished ++ [id]) : t'.executed = t.executed ∧ t'.c = t.c := by
  cases st <;> (try split at h) <;> simp_all

theorem thr_running {sp : Bool} {t t' : Thread.St} {id : Nat} (st : Thread.Step sp t t')
    (h : t'.finished = t.finished) (hw : t.w = .running id) : t'.w = .running id := by
  cases st <;> (try split) <;> simp_all [Thread.wake]

theorem flush_open (c : File.Cfg) (w : File.W) : (File.flush c w).isOpen = w.isOpen := by
  simp only [File.flush, File.sync, File.fdWrite]
  split
  · rfl
  · simp

theorem inv_step {sp : Bool} {s s' : St} {pre : List (List Nat)} (h : Inv sp s pre) (st : Step sp s s') :
    ∃ pre', Inv sp s' pre' := by
  have htk := h.taken
  cases st with
  | send b =>
    have hl : s.sent.length = pre.length + s.job.held.length + s.queue.length := by rw [h.sent]; simp; omega
    have ht : (s.sent ++ [b]).length - (s.queue ++ [b]).length = s.sent.length - s.queue.length := by simp
    refine ⟨pre, h.thr, h.job, h.rest, h.zeroed, h.idle, h.run, by simp [h.sent], ?_, h.none, ?_, ?_⟩
    · have := h.total; simp only [St.taken, ht] at this ⊢; exact this
    · intro hd hc
      obtain ⟨l, f, a, hs⟩ := h.stored hd hc
      refine ⟨l, f, a, hs.confs, hs.name, hs.before, hs.le, hs.cfg, ?_, hs.w, hs.flushed⟩
      show s.disk = _
      rw [hs.disk, files_grow b (by have := hs.le; omega) l hs.before]
    · have := h.said
      simp only [St.taken, ht] at this ⊢; exact this
  | conf c f hn hr =>
    have he := h.rest ⟨hn, hr⟩
    have hj := h.ready he
    rw [hj] at htk
    simp only [Job.held, List.length_nil, Nat.add_zero] at htk
    refine ⟨pre, h.thr, h.job, h.rest, h.zeroed, h.idle, h.run, h.sent, h.total, by simp [confCmd], ?_, h.said⟩
    intro hd _
    simp only [confCmd, Bool.or_eq_false_iff] at hd
    have hw : File.Inv c [] (pre.drop pre.length).flatten (File.openW c []) := by
      simpa using File.open_inv c [] (Or.inl hd.2)
    by_cases hc : s.confs = []
    · obtain ⟨h1, h2⟩ := h.none hc
      refine ⟨[], f, pre.length, by simp [confCmd, hc, htk], rfl, by simp, Nat.le_refl _, hd.2, ?_, hw, ?_⟩
      · simp [confCmd, h1, h2, files]
      · intro _; simp [confCmd, File.openW]
    · obtain ⟨l, g, a, hs⟩ := h.stored hd.1 hc
      refine ⟨s.confs, f, pre.length, by simp [confCmd, htk], rfl, ?_, Nat.le_refl _, hd.2, ?_, hw, ?_⟩
      · intro x hx
        rw [hs.confs] at hx
        have := hs.le
        rcases List.mem_append.1 hx with hx | hx
        · have := hs.before x hx; omega
        · simp at hx; subst hx; exact this
      · have hcl := (File.close_file s.cfg [] _ s.w hs.w).1
        have hseg : segment s.sent a pre.length = (pre.drop a).flatten := by
          unfold segment
          rw [h.sent, List.append_assoc, List.take_append_of_le_length (Nat.le_refl _), List.take_length]
        have hfl : (File.close s.cfg s.w).file = segment s.sent a pre.length := by
          rw [hcl, hseg]; simp [File.overlay]
        show (confCmd s c f).disk = (files s.sent pre.length s.confs).filter _
        rw [hs.confs, files_append, ← hs.disk, List.filter_append]
        simp only [confCmd, hs.w.opn, true_and, hfl, hs.name]
        by_cases hg : g = f
        · simp [hg]
        · simp [hg]
      · intro _; simp [confCmd, File.openW]
  | start hn hr hc =>
    have he := h.rest ⟨hn, hr⟩
    have hj := h.ready he
    refine ⟨pre, h.thr, h.job, by simp [St.resting], fun _ => he, fun _ => h.idle (by simp [hn]), fun _ => rfl, h.sent, ?_, h.none, ?_,
      h.said⟩
    · simp [hj, Job.uncounted, St.taken]
    · intro hd hc'
      obtain ⟨l, f, a, hs⟩ := h.stored hd hc'
      exact ⟨l, f, a, hs.same rfl rfl rfl rfl rfl rfl id⟩
  | arm id t' hz ht hc hi =>
    have hw : t'.w = s.t.w := by cases ht <;> simp_all
    refine ⟨pre, .step _ _ h.thr ht, ?_, by simp [St.resting], by simp, by simp, fun _ => h.run (Or.inl hz), h.sent, h.total, h.none, ?_, h.said⟩
    · intro hj; rw [hw]; exact h.job hj
    · intro hd hc'
      obtain ⟨l, f, a, hs⟩ := h.stored hd hc'
      exact ⟨l, f, a, hs.same rfl rfl rfl rfl rfl rfl (fun x => x)⟩
  | started hc hi =>
    have hr := h.run (Or.inr hc)
    exact ⟨pre, h.thr, h.job, by simp [St.resting, hr], by simp, fun _ => hi, by simp, h.sent, h.total, h.none,
      keep h rfl rfl rfl rfl rfl rfl rfl (fun x => x), h.said⟩
  | stop hn hr =>
    exact ⟨pre, h.thr, h.job, by simp [St.resting], by simp, fun _ => h.idle (by simp [hn]), by simp, h.sent, h.total,
      h.none, keep h rfl rfl rfl rfl rfl rfl rfl (fun x => x), h.said⟩
  | stopped hp he =>
    exact ⟨pre, h.thr, h.job, fun _ => he, by simp, fun _ => h.idle (by simp [hp]), by simp, h.sent, h.total,
      h.none, keep h rfl rfl rfl rfl rfl rfl rfl (fun x => x), h.said⟩
  | thread t' ht h1 h2 h3 =>
    have hex : s.t.c = .idle → s.t.executed = true → t'.executed = true := by
      intro hi he
      cases ht <;> simp_all
    have hci : s.t.c = .idle → t'.c = .idle := by
      intro hi
      rcases h3 with h3 | h3
      · rw [h3]; exact hi
      · exact absurd hi h3
    refine ⟨pre, .step _ _ h.thr ht, ?_, ?_, ?_, fun hc => hci (h.idle hc), h.run, h.sent, h.total, h.none,
      keep h rfl rfl rfl rfl rfl rfl rfl (fun x => x), h.said⟩
    · intro hj
      obtain ⟨id, hw⟩ := h.job hj
      refine ⟨id, ?_⟩
      exact thr_running ht h2 hw
    · intro hr; exact hex (h.idle (by have := hr.1; simp_all)) (h.rest hr)
    · intro hz
      have hz' : s.cmd = .zeroed := hz
      exact hex (h.idle (by simp [hz'])) (h.zeroed hz')
  | enter t' id ht h1 =>
    have hw : s.t.w = .exec ∧ t'.w = .running id ∧ t'.executed = s.t.executed ∧ t'.c = s.t.c := thr_enter ht h1
    have hj : s.job = .done := by
      by_cases hj : s.job = .done
      · exact hj
      · obtain ⟨i, hi⟩ := h.job hj; rw [hw.1] at hi; cases hi
    refine ⟨pre, .step _ _ h.thr ht, fun _ => ⟨id, hw.2.1⟩, fun hr => by simpa [hw.2.2.1] using h.rest hr,
      fun hz => by simpa [hw.2.2.1] using h.zeroed hz, fun hc => by simpa [hw.2.2.2] using h.idle hc, h.run,
      by simpa [hj, Job.held] using h.sent, by simpa [hj, Job.uncounted, St.taken] using h.total, h.none,
      keep h rfl rfl rfl rfl rfl rfl rfl (by simp), by simpa [hj, Job.unsaid, St.taken] using h.said⟩
  | stamp hj => exact ⟨pre, inside h hj rfl rfl rfl (by simp)⟩
  | again hj hm => exact ⟨pre, inside h hj rfl rfl rfl (by simp)⟩
  | leave hj hm => exact ⟨pre, inside h hj rfl rfl rfl (by simp)⟩
  | timeout hj hq => exact ⟨pre, inside h hj rfl rfl rfl (by simp)⟩
  | pop b q hj hq =>
    have hrun := h.job (by simp [hj])
    have htk' : s.sent.length - q.length = s.taken + 1 := by
      have : s.sent.length = pre.length + s.job.held.length + s.queue.length := by rw [h.sent]; simp; omega
      rw [hq] at this
      simp at this
      omega
    refine ⟨pre, h.thr, fun _ => hrun, h.rest, h.zeroed, h.idle, h.run, ?_, ?_, h.none,
      keep h rfl rfl rfl rfl rfl rfl rfl (by simp), ?_⟩
    · have := h.sent; rw [hj, hq] at this; simpa [Job.held] using this
    · have := h.total
      simp only [St.taken, htk', hj, Job.uncounted] at this ⊢; omega
    · have := h.said
      simp only [hj, Job.unsaid] at this
      show match s.rep with
        | .told v => v ≤ s.since ∧ s.reports.sum + (s.since - v) + 1 ≤ s.sent.length - q.length
        | _ => s.reports.sum + s.since + 1 ≤ s.sent.length - q.length
      rw [htk']
      cases hrep : s.rep <;> simp only [hrep] at this ⊢ <;> omega
  | count b hj =>
    have hrun := h.job (by simp [hj])
    refine ⟨pre, h.thr, fun _ => hrun, h.rest, h.zeroed, h.idle, h.run, by simpa [hj, Job.held] using h.sent, ?_, h.none,
      keep h rfl rfl rfl rfl rfl rfl rfl (by simp), by simpa [hj, Job.unsaid, St.taken] using h.said⟩
    have := h.total
    simp only [St.taken, hj, Job.uncounted] at this ⊢; omega
  | count2 b hj =>
    have hrun := h.job (by simp [hj])
    refine ⟨pre, h.thr, fun _ => hrun, h.rest, h.zeroed, h.idle, h.run, by simpa [hj, Job.held] using h.sent,
      by simpa [hj, Job.uncounted, St.taken] using h.total, h.none,
      keep h rfl rfl rfl rfl rfl rfl rfl (by simp), ?_⟩
    have := h.said
    simp only [hj, Job.unsaid] at this
    show match s.rep with
      | .told v => v ≤ s.since + 1 ∧ s.reports.sum + (s.since + 1 - v) + 0 ≤ s.taken
      | _ => s.reports.sum + (s.since + 1) + 0 ≤ s.taken
    cases hrep : s.rep <;> simp only [hrep] at this ⊢ <;> omega
  | write b hj =>
    have hrun := h.job (by simp [hj])
    have hne : (writeStep s b).job ≠ .done := by simp only [writeStep]; split <;> simp
    have hheld : (writeStep s b).job.held = [] := by simp only [writeStep]; split <;> rfl
    have hunc : (writeStep s b).job.uncounted = 0 := by simp only [writeStep]; split <;> rfl
    have huns : (writeStep s b).job.unsaid = 0 := by simp only [writeStep]; split <;> rfl
    refine ⟨pre ++ [b], h.thr, fun _ => hrun, h.rest, h.zeroed, h.idle, h.run, ?_, ?_, ?_, ?_, ?_⟩
    · rw [hheld]
      have := h.sent; rw [hj] at this
      simpa [Job.held, writeStep] using this
    · rw [hunc]
      have := h.total
      simp only [hj, Job.uncounted] at this
      exact this
    · intro hc
      obtain ⟨h1, h2⟩ := h.none hc
      exact ⟨h1, by simp [writeStep, File.write, h2]⟩
    · intro hd hc
      obtain ⟨l, f, a, hs⟩ := h.stored hd hc
      obtain ⟨w1, -, -⟩ := File.write_inv s.cfg [] b _ s.w hs.w
      refine ⟨l, f, a, hs.confs, hs.name, hs.before, by have := hs.le; simp; omega, hs.cfg, hs.disk, ?_,
        fun hx => absurd hx hne⟩
      rw [List.drop_append_of_le_length hs.le]
      simpa [writeStep] using w1
    · rw [huns]
      have := h.said
      simp only [hj, Job.unsaid] at this
      exact this
  | flush hj =>
    refine ⟨pre, h.thr, by simp, h.rest, h.zeroed, h.idle, h.run, by simpa [hj, Job.held] using h.sent,
      by simpa [hj, Job.uncounted, St.taken] using h.total, ?_, ?_, by simpa [hj, Job.unsaid, St.taken] using h.said⟩
    · intro hc
      obtain ⟨h1, h2⟩ := h.none hc
      refine ⟨h1, ?_⟩
      show (File.flush s.cfg s.w).isOpen = false
      rw [flush_open]; exact h2
    · intro hd hc
      obtain ⟨l, f, a, hs⟩ := h.stored hd hc
      obtain ⟨f1, -, f3⟩ := File.flush_inv s.cfg [] _ s.w hs.w (by simp [hs.cfg])
      refine ⟨l, f, a, hs.confs, hs.name, hs.before, hs.le, hs.cfg, hs.disk, f1, fun _ => ?_⟩
      show (File.flush s.cfg s.w).file = _
      rw [f3]; simp [File.overlay]
  | «return» t' id hj ht h1 =>
    have hw := thr_return ht h1
    exact ⟨pre, .step _ _ h.thr ht, fun hx => absurd hj hx, fun hr => by simpa [hw.1] using h.rest hr,
      fun hz => by simpa [hw.1] using h.zeroed hz, fun hc => by simpa [hw.2] using h.idle hc, h.run,
      h.sent, h.total, h.none, keep h rfl rfl rfl rfl rfl rfl rfl (fun x => x), h.said⟩
  | report hn =>
    refine ⟨pre, h.thr, h.job, h.rest, h.zeroed, h.idle, h.run, h.sent, h.total, h.none,
      keep h rfl rfl rfl rfl rfl rfl rfl (fun x => x), ?_⟩
    have := h.said; rw [hn] at this; exact this
  | tell hn =>
    refine ⟨pre, h.thr, h.job, h.rest, h.zeroed, h.idle, h.run, h.sent, h.total, h.none,
      keep h rfl rfl rfl rfl rfl rfl rfl (fun x => x), ?_⟩
    have := h.said; rw [hn] at this
    simp only [List.sum_append, List.sum_cons, List.sum_nil] at this ⊢
    exact ⟨Nat.le_refl _, by have h2 : s.reports.sum + s.since + s.job.unsaid ≤ s.taken := this; simp only [St.taken] at h2 ⊢; omega⟩
  | zero v hn =>
    refine ⟨pre, h.thr, h.job, h.rest, h.zeroed, h.idle, h.run, h.sent, h.total, h.none,
      keep h rfl rfl rfl rfl rfl rfl rfl (fun x => x), ?_⟩
    have := h.said; rw [hn] at this
    have h2 : s.reports.sum + (s.since - v) + s.job.unsaid ≤ s.taken := this.2
    show s.reports.sum + 0 + s.job.unsaid ≤ s.taken
    omega
  | reported hn =>
    refine ⟨pre, h.thr, h.job, h.rest, h.zeroed, h.idle, h.run, h.sent, h.total, h.none,
      keep h rfl rfl rfl rfl rfl rfl rfl (fun x => x), ?_⟩
    have := h.said; rw [hn] at this; exact this

theorem inv_reach {sp : Bool} {s : St} (h : Reach sp s) : ∃ pre, Inv sp s pre := by
  induction h with
  | init =>
    exact ⟨[], .init, by simp [St.init], by simp [St.init, Thread.init], by simp [St.init], by simp [St.init, Thread.init],
      by simp [St.init], by simp [St.init, Job.held], by simp [St.init, Job.uncounted, St.taken],
      by simp [St.init, File.closedW], by simp [St.init], by simp [St.init, Job.unsaid, St.taken]⟩
  | step s s' _ st ih =>
    obtain ⟨pre, h⟩ := ih
    exact inv_step h st

/-! ### Concrete executions -/

/-- No O_DIRECT, a buffer of four bytes. -/
def small : File.Cfg := ⟨4, false, 1, false⟩

/-- After conf of the file "a" and start, the worker inside `do_work`. -/
def begun : St :=
  ⟨⟨false, true, false, false, some 1, .running 1, .idle, [1], [1], [], some true⟩, true, .stamp, [],
    File.openW small [], small, "a", [], 0, 0, .none, .none, true, [], [("a", 0)], 0, false, []⟩

theorem begun_reach : Reach false begun := by
  have r1 := Reach.step _ _ (Reach.init (sp := false)) (.conf _ small "a" rfl rfl)
  have r2 := Reach.step _ _ r1 (.start _ rfl rfl (by simp [confCmd]))
  have r3 := Reach.step _ _ r2 (.arm _ 1 _ rfl (.cCall _ 1 rfl) rfl rfl)
  have r4 := Reach.step _ _ r3 (.thread _ _ (.cChk _ 1 rfl) rfl rfl (Or.inr (by simp)))
  have r5 := Reach.step _ _ r4 (.thread _ _ (.cXchg _ 1 rfl) rfl rfl (Or.inr (by simp [confCmd, St.init, Thread.init])))
  have r6 := Reach.step _ _ r5 (.thread _ _ (.cBind _ 1 rfl) rfl rfl (Or.inr (by simp [confCmd, St.init, Thread.init])))
  have r7 := Reach.step _ _ r6 (.thread _ _ (.cAssign _ rfl) rfl rfl (Or.inr (by simp)))
  have r8 := Reach.step _ _ r7 (.thread _ _ (.cNotify _ rfl) rfl rfl (Or.inr (by simp)))
  have r9 := Reach.step _ _ r8 (.started _ rfl rfl)
  have r10 := Reach.step _ _ r9 (.thread _ _ (.wTop _ rfl) rfl rfl (Or.inl rfl))
  have r11 := Reach.step _ _ r10 (.thread _ _ (.wRdE _ rfl) rfl rfl (Or.inl rfl))
  have r12 := Reach.step _ _ r11 (.thread _ _ (.wRdA _ rfl) rfl rfl (Or.inl rfl))
  exact Reach.step _ _ r12 (.enter _ _ 1 (.wExec _ 1 rfl rfl) rfl)

/-- The packets `[1, 2]` and `[3]` have been sent, the first one has been recorded, and the run has been stopped. -/
def rested : St :=
  ⟨⟨true, true, false, false, some 1, .setA, .idle, [1], [1], [1], some true⟩, false, .done, [[3]],
    ⟨true, false, false, [], 2, [1, 2]⟩, small, "a", [], 1, 1, .none, .none, false, [[1, 2], [3]], [("a", 0)], 0, false, []⟩

theorem rested_reach : Reach false rested := by
  have r1 := Reach.step _ _ begun_reach (.stamp _ rfl)
  have r2 := Reach.step _ _ r1 (.send _ [1, 2])
  have r3 := Reach.step _ _ r2 (.again _ rfl rfl)
  have r4 := Reach.step _ _ r3 (.pop _ [1, 2] [] rfl rfl)
  have r5 := Reach.step _ _ r4 (.send _ [3])
  have r6 := Reach.step _ _ r5 (.count _ _ rfl)
  have r7 := Reach.step _ _ r6 (.count2 _ _ rfl)
  have r8 := Reach.step _ _ r7 (.write _ _ rfl)
  have r9 := Reach.step _ _ r8 (.stop _ rfl rfl)
  have r10 := Reach.step _ _ r9 (.leave _ rfl rfl)
  have r11 := Reach.step _ _ r10 (.flush _ rfl)
  have r12 := Reach.step _ _ r11 (.return _ _ 1 rfl (.wReturn _ 1 rfl) rfl)
  have r13 := Reach.step _ _ r12 (.thread _ _ (.wSetE _ rfl) rfl rfl (Or.inl rfl))
  exact Reach.step _ _ r13 (.stopped _ rfl rfl)

/-! ### Property C101 -/

/-- **C101 (every packet once, in order)** In every execution: the packets are taken from the queue in the order in which
they were sent, each once, and the others are still there; the counter is the number of packets taken since the last
start, at most one behind while a packet is being handled, exact between runs; and the numbers of new packets in the
reports add up to no more than were taken. -/
theorem C101_each_packet_once (sp : Bool) (s : St) (h : Reach sp s) :
    s.queue = s.sent.drop s.taken ∧ s.base ≤ s.taken ∧ s.taken ≤ s.sent.length ∧
    s.total ≤ s.taken - s.base ∧ s.taken - s.base ≤ s.total + 1 ∧ (s.resting → s.total = s.taken - s.base) ∧
    s.reports.sum ≤ s.taken := by
  obtain ⟨pre, inv⟩ := inv_reach h
  have ht := inv.total
  have hu : s.job.uncounted ≤ 1 := by cases s.job <;> simp [Job.uncounted]
  refine ⟨?_, by omega, Nat.sub_le _ _, by omega, by omega, ?_, ?_⟩
  · rw [inv.taken, inv.sent, ← List.length_append, List.drop_left]
  · intro hr
    have := inv.ready (inv.rest hr)
    rw [this] at ht
    simp only [Job.uncounted] at ht
    omega
  · have := inv.said
    cases hrep : s.rep <;> simp only [hrep] at this <;> omega

example : ∃ s, Reach false s ∧ s.resting ∧ s.taken = 1 ∧ s.queue = [[3]] ∧ s.total = 1 :=
  ⟨_, rested_reach, ⟨rfl, rfl⟩, rfl, rfl, rfl⟩

/-- **C101 (files, partial)** As long as O_DIRECT is not used, in every execution: the files on disk together with the
writer's buffer hold exactly the packets taken, in order, each in the file of the last conf before it was taken, except
possibly the packet being handled; between runs nothing is left in the buffer; a file is gone only if a later conf
named it again. Missing: O_DIRECT, where it is false (`C53_second_run_counterexample`). -/
theorem C101_files_partial (sp : Bool) (s : St) (h : Reach sp s) (hd : s.direct = false) (hc : s.confs ≠ []) :
    (∃ k, k ≤ s.taken ∧ s.taken ≤ k + 1 ∧ s.disk ++ [(s.name, s.w.file ++ s.w.buf)] = files s.sent k s.confs) ∧
    (s.resting → s.disk ++ [(s.name, s.w.file)] = files s.sent s.taken s.confs) := by
  obtain ⟨pre, inv⟩ := inv_reach h
  obtain ⟨l, f, a, hs⟩ := inv.stored hd hc
  have ht := inv.taken
  have hh : s.job.held.length ≤ 1 := by cases s.job <;> simp [Job.held]
  have hseg : segment s.sent a pre.length = (pre.drop a).flatten := by
    unfold segment
    rw [inv.sent, List.append_assoc, List.take_append_of_le_length (Nat.le_refl _), List.take_length]
  constructor
  · refine ⟨pre.length, by omega, by omega, ?_⟩
    rw [hs.confs, files_append, ← hs.disk, hs.name, hseg, hs.w.file, hs.w.buf]
    simp
  · intro hr
    have hj := inv.ready (inv.rest hr)
    rw [hj] at ht
    simp only [Job.held, List.length_nil, Nat.add_zero] at ht
    rw [hs.confs, files_append, ← hs.disk, hs.name, ht, hseg, hs.flushed hj]

/-- Non-vacuity: the packet taken is in the file. -/
example : ∃ s, Reach false s ∧ s.direct = false ∧ s.confs ≠ [] ∧ s.resting ∧
    files s.sent s.taken s.confs = [("a", [1, 2])] :=
  ⟨_, rested_reach, rfl, by simp [rested], ⟨rfl, rfl⟩, rfl⟩

/-- How far the worker is from reporting readiness once the marker is cleared. -/
def toGo (s : St) : Nat :=
  match s.t.w with
  | .setE => 1
  | _ =>
    match s.job with
    | .done => 2
    | .flush => 3
    | .top => 4
    | .stamp => 5
    | .ready _ => 6
    | .counted _ => 7
    | .got _ => 8
    | .wait => 9

theorem polling_marker {sp : Bool} {s : St} (h : Reach sp s) (hp : s.cmd = .polling) : s.marker = false := by
  induction h with
  | init => simp [St.init] at hp
  | step s s' _ st ih => cases st <;> simp_all [confCmd, writeStep]

/-- **C101 (stop, partial)** A stop that finds the worker inside its task waits for at most nine steps of the worker: the
worker can always take one, every one of them brings the end closer, and no step of anybody else moves it away. Missing:
a stop of a run whose task never began. -/
theorem C101_stop_partial (sp : Bool) (s : St) (h : Reach sp s) (hp : s.cmd = .polling)
    (hw : (∃ id, s.t.w = .running id) ∨ s.t.w = .setE) :
    (∃ s', Step sp s s' ∧ (toGo s' < toGo s ∨ s'.t.executed = true)) ∧ toGo s ≤ 9 ∧
    ∀ s', Step sp s s' → s'.t.executed = true ∨
      (s'.cmd = .polling ∧ ((∃ id, s'.t.w = .running id) ∨ s'.t.w = .setE) ∧
        (toGo s' < toGo s ∨ (s'.t.w = s.t.w ∧ s'.job = s.job))) := by
  have hm := polling_marker h hp
  obtain ⟨pre, inv⟩ := inv_reach h
  have hti := Thread.inv_reach inv.thr
  have hidle := inv.idle (by simp [hp])
  have hjob : s.t.w = .setE → s.job = .done := by
    intro hs
    by_cases hj : s.job = .done
    · exact hj
    · obtain ⟨id, hi⟩ := inv.job hj; rw [hs] at hi; cases hi
  refine ⟨?_, ?_, ?_⟩
  · rcases hw with ⟨id, hw⟩ | hw
    · cases hj : s.job with
      | stamp => exact ⟨_, .stamp _ hj, Or.inl (by simp [toGo, hw, hj])⟩
      | top => exact ⟨_, .leave _ hj hm, Or.inl (by simp [toGo, hw, hj])⟩
      | wait =>
        cases hq : s.queue with
        | nil => exact ⟨_, .timeout _ hj hq, Or.inl (by simp [toGo, hw, hj])⟩
        | cons b q => exact ⟨_, .pop _ b q hj hq, Or.inl (by simp [toGo, hw, hj])⟩
      | got b => exact ⟨_, .count _ b hj, Or.inl (by simp [toGo, hw, hj])⟩
      | counted b => exact ⟨_, .count2 _ b hj, Or.inl (by simp [toGo, hw, hj])⟩
      | ready b =>
        refine ⟨_, .write _ b hj, Or.inl ?_⟩
        simp only [toGo, writeStep, hw, hj]
        split <;> rename_i hx <;> revert hx <;> split <;> simp
      | flush => exact ⟨_, .flush _ hj, Or.inl (by simp [toGo, hw, hj])⟩
      | done => exact ⟨_, .return _ _ id hj (.wReturn _ id hw) rfl, Or.inl (by simp [toGo, hw, hj])⟩
    · exact ⟨_, .thread _ _ (.wSetE _ hw) rfl rfl (Or.inl rfl), Or.inr rfl⟩
  · unfold toGo
    split
    · omega
    · cases s.job <;> simp
  · intro s' st
    cases st with
    | thread t' ht h1 h2 h3 =>
      rcases hw with ⟨id, hw⟩ | hw
      · right
        exact ⟨hp, Or.inl ⟨id, thr_running ht h2 hw⟩, Or.inr ⟨by rw [hw]; exact thr_running ht h2 hw, rfl⟩⟩
      · cases ht <;> simp_all
    | enter t' id ht h1 =>
      have := (thr_enter ht h1).1
      rcases hw with ⟨i, hw⟩ | hw <;> rw [hw] at this <;> cases this
    | «return» t' id hj ht h1 =>
      rcases hw with ⟨i, hw⟩ | hw
      · right
        have h2 : t'.w = .setE := by cases ht <;> (try split at h1) <;> simp_all
        exact ⟨hp, Or.inr h2, Or.inl (by simp [toGo, hw, h2, hj])⟩
      · exfalso; cases ht <;> (try split at h1) <;> simp_all
    | stopped h1 h2 => exact Or.inl h2
    | arm id t' hz ht hc hi => rw [hp] at hz; cases hz
    | conf c f h1 h2 => rw [hp] at h1; cases h1
    | start h1 h2 h3 => rw [hp] at h1; cases h1
    | stop h1 h2 => rw [hp] at h1; cases h1
    | started h1 h2 => rw [hp] at h1; cases h1
    | send b => exact Or.inr ⟨hp, hw, Or.inr ⟨rfl, rfl⟩⟩
    | report h1 => exact Or.inr ⟨hp, hw, Or.inr ⟨rfl, rfl⟩⟩
    | tell h1 => exact Or.inr ⟨hp, hw, Or.inr ⟨rfl, rfl⟩⟩
    | zero v h1 => exact Or.inr ⟨hp, hw, Or.inr ⟨rfl, rfl⟩⟩
    | reported h1 => exact Or.inr ⟨hp, hw, Or.inr ⟨rfl, rfl⟩⟩
    | again h1 h2 => rw [hm] at h2; cases h2
    | write b hj =>
      right
      refine ⟨hp, hw, Or.inl ?_⟩
      rcases hw with ⟨id, hw⟩ | hw
      · simp only [toGo, writeStep, hw, hj]
        split <;> rename_i hx <;> revert hx <;> split <;> simp
      · rw [hjob hw] at hj; cases hj
    | stamp hj => exact Or.inr ⟨hp, hw, Or.inl (by rcases hw with ⟨id, hw⟩ | hw <;> simp_all [toGo])⟩
    | leave hj _ => exact Or.inr ⟨hp, hw, Or.inl (by rcases hw with ⟨id, hw⟩ | hw <;> simp_all [toGo])⟩
    | timeout hj _ => exact Or.inr ⟨hp, hw, Or.inl (by rcases hw with ⟨id, hw⟩ | hw <;> simp_all [toGo])⟩
    | pop b q hj _ => exact Or.inr ⟨hp, hw, Or.inl (by rcases hw with ⟨id, hw⟩ | hw <;> simp_all [toGo])⟩
    | count b hj => exact Or.inr ⟨hp, hw, Or.inl (by rcases hw with ⟨id, hw⟩ | hw <;> simp_all [toGo])⟩
    | count2 b hj => exact Or.inr ⟨hp, hw, Or.inl (by rcases hw with ⟨id, hw⟩ | hw <;> simp_all [toGo])⟩
    | flush hj => exact Or.inr ⟨hp, hw, Or.inl (by rcases hw with ⟨id, hw⟩ | hw <;> simp_all [toGo])⟩

example : ∃ s, Reach false s ∧ s.cmd = .polling ∧ s.t.w = .running 1 :=
  ⟨_, .step _ _ begun_reach (.stop _ rfl rfl), rfl, rfl⟩

/-- **C101 is false of the code (packets of a run)**: a packet that is still in the queue when the run is stopped is
recorded in the next run, into the file configured for that one. -/
theorem C101_leftover_counterexample : ∃ s1 s2, Reach false s1 ∧ s1.resting ∧ s1.sent = [[1, 2], [3]] ∧
    s1.name = "a" ∧ Reach false s2 ∧ s2.sent = s1.sent ∧ s2.disk = [("a", [1, 2])] ∧ s2.name = "b" ∧ s2.w.buf = [3] := by
  have r0 := Reach.step _ _ rested_reach (.thread _ _ (.wSetA _ rfl) rfl rfl (Or.inl rfl))
  have r1 := Reach.step _ _ r0 (.conf _ small "b" rfl rfl)
  have r2 := Reach.step _ _ r1 (.start _ rfl rfl (by simp [confCmd]))
  have r3 := Reach.step _ _ r2 (.arm _ 2 _ rfl (.cCall _ 2 rfl) rfl rfl)
  have r4 := Reach.step _ _ r3 (.thread _ _ (.cChk _ 2 rfl) rfl rfl (Or.inr (by simp)))
  have r5 := Reach.step _ _ r4 (.thread _ _ (.cXchg _ 2 rfl) rfl rfl (Or.inr (by simp [confCmd, rested])))
  have r6 := Reach.step _ _ r5 (.thread _ _ (.cBind _ 2 rfl) rfl rfl (Or.inr (by simp [confCmd, rested])))
  have r7 := Reach.step _ _ r6 (.thread _ _ (.cAssign _ rfl) rfl rfl (Or.inr (by simp)))
  have r8 := Reach.step _ _ r7 (.thread _ _ (.cNotify _ rfl) rfl rfl (Or.inr (by simp)))
  have r10 := Reach.step _ _ r8 (.thread _ _ (.wTop _ rfl) rfl rfl (Or.inl rfl))
  have r11 := Reach.step _ _ r10 (.thread _ _ (.wRdE _ rfl) rfl rfl (Or.inl rfl))
  have r12 := Reach.step _ _ r11 (.thread _ _ (.wRdA _ rfl) rfl rfl (Or.inl rfl))
  have r13 := Reach.step _ _ r12 (.enter _ _ 2 (.wExec _ 2 rfl rfl) rfl)
  have r14 := Reach.step _ _ r13 (.stamp _ rfl)
  have r15 := Reach.step _ _ r14 (.again _ rfl rfl)
  have r16 := Reach.step _ _ r15 (.pop _ [3] [] rfl rfl)
  have r17 := Reach.step _ _ r16 (.count _ _ rfl)
  have r18 := Reach.step _ _ r17 (.count2 _ _ rfl)
  have r19 := Reach.step _ _ r18 (.write _ _ rfl)
  exact ⟨_, _, rested_reach, ⟨rfl, rfl⟩, rfl, rfl, r19, rfl, rfl, rfl, rfl⟩

/-- **C101 is false of the code (earlier recordings)**: configuring the same file again deletes what the runs before have
recorded. -/
theorem C101_reconfigured_counterexample : ∃ s1 s2, Reach false s1 ∧ s1.resting ∧ s1.w.file = [1, 2] ∧
    Step false s1 s2 ∧ s2.disk = [] ∧ s2.w.file = [] ∧ s2.total = 1 :=
  ⟨_, _, rested_reach, ⟨rfl, rfl⟩, rfl, .conf _ small "a" rfl rfl, rfl, rfl, rfl⟩

/-- A run whose `set_work` was refused. -/
def Deaf (s : St) : Prop :=
  s.inRun = true ∧ s.cmd = .none ∧ s.t.executed = true ∧ s.job = .done

/-- **C101 is false of the code (a run may record nothing)**: a start that comes right after a stop is refused by the
thread, which still clears its flags; the command succeeds all the same. -/
theorem C101_deaf_run_counterexample : ∃ s, Reach false s ∧ Deaf s ∧ s.queue = [[3]] ∧ s.t.last = some false := by
  have r2 := Reach.step _ _ rested_reach (.start _ rfl rfl (by simp [rested]))
  have r3 := Reach.step _ _ r2 (.arm _ 2 _ rfl (.cCall _ 2 rfl) rfl rfl)
  have r4 := Reach.step _ _ r3 (.thread _ _ (.cChk _ 2 rfl) rfl rfl (Or.inr (by simp)))
  have r5 := Reach.step _ _ r4 (.started _ rfl rfl)
  exact ⟨_, r5, ⟨rfl, rfl, rfl, rfl⟩, rfl, rfl⟩

/-- **C101: such a run stays like that** until it is stopped: whatever is sent, no packet is taken, none is written. -/
theorem C101_deaf_forever (sp : Bool) (s s' : St) (h : Reach sp s) (hd : Deaf s) (st : Step sp s s')
    (hr : s'.inRun = true) : Deaf s' ∧ s'.taken = s.taken ∧ s'.w = s.w := by
  obtain ⟨h1, h2, h3, h4⟩ := hd
  obtain ⟨pre, inv⟩ := inv_reach h
  have hi := inv.idle (by simp [h2])
  have hti := (Thread.inv_reach inv.thr).2.2
  cases st with
  | thread t' ht e1 e2 e3 =>
    refine ⟨⟨h1, h2, ?_, h4⟩, rfl, rfl⟩
    show t'.executed = true
    cases ht <;> simp_all
  | enter t' id ht e1 =>
    have := (thr_enter ht e1).1
    rw [this] at hti
    simp only [h3, if_true] at hti
    have ha := (Thread.inv_reach inv.thr).2.1 (by rw [this]; rfl)
    rw [hti.2.1] at ha; cases ha
  | «return» t' id hj ht e1 =>
    have := (thr_return ht e1).1
    exact ⟨⟨h1, h2, by rw [← h3]; exact this, h4⟩, rfl, rfl⟩
  | _ => simp_all [Deaf, St.taken]

example : ∃ s s', Reach false s ∧ Deaf s ∧ Step false s s' ∧ s'.inRun = true := by
  obtain ⟨s, h1, h2, -⟩ := C101_deaf_run_counterexample
  exact ⟨s, _, h1, h2, .send _ [4], h2.1⟩

/-- A stop that waits for a task that will never begin. -/
def Hangs (s : St) : Prop := s.cmd = .polling ∧ Thread.Stuck s.t

/-- **C101 is false of the code (stop returns)**: the start of the task can be missed by the worker
(`C44_lost_wakeup_counterexample`); the stop of that run then waits. -/
theorem C101_stop_hangs_counterexample : ∃ s, Reach false s ∧ Hangs s ∧ s.queue = [[7]] := by
  have r1 := Reach.step _ _ (Reach.init (sp := false)) (.conf _ small "a" rfl rfl)
  have r2 := Reach.step _ _ r1 (.thread _ _ (.wTop _ rfl) rfl rfl (Or.inl rfl))
  have r3 := Reach.step _ _ r2 (.thread _ _ (.wRdE _ rfl) rfl rfl (Or.inl rfl))
  have r4 := Reach.step _ _ r3 (.start _ rfl rfl (by simp [confCmd]))
  have r5 := Reach.step _ _ r4 (.arm _ 1 _ rfl (.cCall _ 1 rfl) rfl rfl)
  have r6 := Reach.step _ _ r5 (.thread _ _ (.cChk _ 1 rfl) rfl rfl (Or.inr (by simp)))
  have r7 := Reach.step _ _ r6 (.thread _ _ (.cXchg _ 1 rfl) rfl rfl (Or.inr (by simp [confCmd, St.init, Thread.init])))
  have r8 := Reach.step _ _ r7 (.thread _ _ (.cBind _ 1 rfl) rfl rfl (Or.inr (by simp [confCmd, St.init, Thread.init])))
  have r9 := Reach.step _ _ r8 (.thread _ _ (.cAssign _ rfl) rfl rfl (Or.inr (by simp)))
  have r10 := Reach.step _ _ r9 (.thread _ _ (.cNotify _ rfl) rfl rfl (Or.inr (by simp)))
  have r11 := Reach.step _ _ r10 (.thread _ _ (.wEnter _ rfl) rfl rfl (Or.inl rfl))
  have r12 := Reach.step _ _ r11 (.started _ rfl rfl)
  have r13 := Reach.step _ _ r12 (.send _ [7])
  have r14 := Reach.step _ _ r13 (.stop _ rfl rfl)
  exact ⟨_, r14, ⟨rfl, rfl, rfl, rfl, Or.inl rfl⟩, rfl⟩

/-- **C101: and it waits for ever** (without spurious wake-ups), with every packet left in the queue. -/
theorem C101_hangs_forever (s s' : St) (h : Reach false s) (hs : Hangs s) (st : Step false s s') :
    Hangs s' ∧ s'.taken = s.taken := by
  obtain ⟨h1, h2⟩ := hs
  obtain ⟨pre, inv⟩ := inv_reach h
  have hj : s.job = .done := by
    by_cases hj : s.job = .done
    · exact hj
    · obtain ⟨id, hw⟩ := inv.job hj; rw [h2.2.2.1] at hw; cases hw
  cases st with
  | thread t' ht e1 e2 e3 => exact ⟨⟨h1, (Thread.C44_stuck_forever _ _ h2 ht).1⟩, rfl⟩
  | enter t' id ht e1 => have := (thr_enter ht e1).1; rw [h2.2.2.1] at this; cases this
  | «return» t' id hj ht e1 => exact ⟨⟨h1, (Thread.C44_stuck_forever _ _ h2 ht).1⟩, rfl⟩
  | stopped e1 e2 => rw [h2.1] at e2; cases e2
  | send b => exact ⟨⟨h1, h2⟩, by simp [St.taken]⟩
  | _ => simp_all [Hangs, St.taken]

example : ∃ s s', Reach false s ∧ Hangs s ∧ Step false s s' := by
  obtain ⟨s, h1, h2, -⟩ := C101_stop_hangs_counterexample
  exact ⟨s, _, h1, h2, .send _ [8]⟩

/-- **C101 is false of the code (reports)**: packets counted between reading and clearing the counter are in no report. -/
theorem C101_uncounted_counterexample : ∃ s, Reach false s ∧ s.rep = .none ∧ s.taken = 1 ∧ s.since = 0 ∧
    s.reports = [0] ∧ s.total = 1 := by
  have r1 := Reach.step _ _ begun_reach (.stamp _ rfl)
  have r2 := Reach.step _ _ r1 (.send _ [1, 2])
  have r3 := Reach.step _ _ r2 (.again _ rfl rfl)
  have r4 := Reach.step _ _ r3 (.report _ rfl)
  have r5 := Reach.step _ _ r4 (.tell _ rfl)
  have r6 := Reach.step _ _ r5 (.pop _ [1, 2] [] rfl rfl)
  have r7 := Reach.step _ _ r6 (.count _ _ rfl)
  have r8 := Reach.step _ _ r7 (.count2 _ _ rfl)
  have r9 := Reach.step _ _ r8 (.zero _ _ rfl)
  have r10 := Reach.step _ _ r9 (.reported _ rfl)
  exact ⟨_, r10, rfl, rfl, rfl, rfl, rfl⟩

/-- **C101 is false of the code (data race)**: the worker writes the time of the last report, a plain member, while a
report is about to read it or to write it. -/
theorem C101_time_race_counterexample :
    (∃ s, Reach false s ∧ s.job = .stamp ∧ s.rep = .began) ∧ ∃ s, Reach false s ∧ s.job = .stamp ∧ s.rep = .zeroed := by
  have r1 := Reach.step _ _ begun_reach (.report _ rfl)
  have r2 := Reach.step _ _ r1 (.tell _ rfl)
  have r3 := Reach.step _ _ r2 (.zero _ _ rfl)
  exact ⟨⟨_, r1, rfl, rfl⟩, _, r3, rfl, rfl⟩

end Verif.RecMod
