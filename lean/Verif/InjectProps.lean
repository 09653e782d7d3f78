import Verif.InjectModel
import Verif.EmuProps
import Verif.FrameErrProps
/- Property C124: injected frame errors arrive in the reports and in the queue of errored frames. -/
namespace Verif.Inject

/-! ### Specification vocabulary -/

/-- Error words of the frames that arrived at the link in run `r`, in order. -/
def arrivedIn (r : Nat) (m : List Made) : List Nat :=
  ((m.filter (fun x => decide (x.run = r) && x.arrived)).map (·.words)).flatten

/-- Error words of all frames that ever arrived at the link, in order. -/
def arrived (m : List Made) : List Nat := ((m.filter (·.arrived)).map (·.words)).flatten

/-- Number of error bits set in some frames. -/
def errorBits (l : List Nat) : Nat := (l.map (FrameErr.bitsSet 16)).sum

/-- Sum of what was reported during run `r` (before the first one: run 0). -/
def reportedIn (r : Nat) (l : List (Nat × Nat)) : Nat := ((l.filter (fun x => decide (x.1 = r))).map (·.2)).sum

/-- Frames put into the queue of errored frames during run `r`. -/
def sentIn (r : Nat) (l : List (Nat × Nat)) : List Nat := (l.filter (fun x => decide (x.1 = r))).map (·.2)

/-- Frames that arrived and are no longer in the queue nor in the consumer's hands. -/
def checked (s : St) : List Nat :=
  (arrived s.made).take ((arrived s.made).length - (s.frames.length + s.queue.flatten.length))

/-! ### Lemmas -/

theorem arrivedIn_append (r : Nat) (l m : List Made) : arrivedIn r (l ++ m) = arrivedIn r l ++ arrivedIn r m := by
  simp [arrivedIn]

theorem arrived_append (l m : List Made) : arrived (l ++ m) = arrived l ++ arrived m := by simp [arrived]

theorem errorBits_append (l m : List Nat) : errorBits (l ++ m) = errorBits l + errorBits m := by simp [errorBits]

theorem reportedIn_append (r : Nat) (l m : List (Nat × Nat)) :
    reportedIn r (l ++ m) = reportedIn r l + reportedIn r m := by simp [reportedIn]

theorem sentIn_append (r : Nat) (l m : List (Nat × Nat)) : sentIn r (l ++ m) = sentIn r l ++ sentIn r m := by
  simp [sentIn]

theorem arrivedIn_new {r : Nat} {l : List Made} (h : ∀ x ∈ l, x.run < r) : arrivedIn r l = [] := by
  unfold arrivedIn
  rw [List.filter_eq_nil_iff.2]
  · rfl
  · intro x hx; have := h x hx; simp; omega

theorem reportedIn_new {r : Nat} {l : List (Nat × Nat)} (h : ∀ x ∈ l, x.1 < r) : reportedIn r l = 0 := by
  unfold reportedIn
  rw [List.filter_eq_nil_iff.2]
  · rfl
  · intro x hx; have := h x hx; simp; omega

theorem sentIn_new {r : Nat} {l : List (Nat × Nat)} (h : ∀ x ∈ l, x.1 < r) : sentIn r l = [] := by
  unfold sentIn
  rw [List.filter_eq_nil_iff.2]
  · rfl
  · intro x hx; have := h x hx; simp; omega

theorem draw_gens (t : Emu.Tables) (n k : Nat) :
    (draw t k (Emu.gens t n).1).1 = (Emu.gens t (n + k)).1 ∧
    (Emu.gens t n).2 ++ (draw t k (Emu.gens t n).1).2 = (Emu.gens t (n + k)).2 := by
  induction k with
  | zero => simp [draw]
  | succ k ih =>
    rw [← Nat.add_assoc]
    simp only [draw, Emu.gens]
    rw [← List.append_assoc, ih.2, ih.1]
    exact ⟨rfl, rfl⟩

theorem sum_range_le (n : Nat) (p : Nat → Nat) (b : Nat) (h : ∀ j, p j ≤ b) : ((List.range n).map p).sum ≤ n * b := by
  induction n with
  | zero => simp
  | succ n ih =>
    rw [List.range_succ, List.map_append, List.sum_append, Nat.succ_mul]
    have := h n
    simp only [List.map_cons, List.map_nil, List.sum_cons, List.sum_nil]
    omega

theorem sum_range_mono (n : Nat) (p q : Nat → Nat) (h : ∀ j, p j ≤ q j) :
    ((List.range n).map p).sum ≤ ((List.range n).map q).sum := by
  induction n with
  | zero => simp
  | succ n ih =>
    rw [List.range_succ, List.map_append, List.sum_append, List.map_append, List.sum_append]
    have := h n
    simp only [List.map_cons, List.map_nil, List.sum_cons, List.sum_nil]
    omega

theorem sum_range_lt (n : Nat) (p q : Nat → Nat) (h : ∀ j, p j ≤ q j) (k : Nat) (hk : k < n) (hlt : p k < q k) :
    ((List.range n).map p).sum + 1 ≤ ((List.range n).map q).sum := by
  induction n with
  | zero => omega
  | succ n ih =>
    rw [List.range_succ, List.map_append, List.sum_append, List.map_append, List.sum_append]
    simp only [List.map_cons, List.map_nil, List.sum_cons, List.sum_nil]
    have hn := h n
    by_cases hkn : k = n
    · subst hkn
      have := sum_range_mono k p q h
      omega
    · have := ih (by omega)
      omega

/-- Everything known about a WIB link: `done` are the frames checked so far, `cur` those of this run, `p` how often each
bit passed the throttle in this run. -/
structure Inv (c : Cfg) (s : St) (done cur : List Nat) (p : Nat → Nat) : Prop where
  gen : s.gen = (Emu.gens c.tables (12 * s.made.length)).1
  words : (s.made.map (·.words)).flatten = (Emu.gens c.tables (12 * s.made.length)).2
  all : arrived s.made = done ++ s.frames ++ s.queue.flatten
  now : arrivedIn s.run s.made = cur ++ s.frames ++ s.queue.flatten
  down : s.ctl = .down → s.queue = [] ∧ s.frames = []
  mrun : ∀ x ∈ s.made, x.run ≤ s.run
  rrun : ∀ x ∈ s.reports, x.1 ≤ s.run
  srun : ∀ x ∈ s.sent, x.1 ≤ s.run
  count : reportedIn s.run s.reports + s.fe.total = errorBits cur
  earlier : ∀ r, reportedIn r s.reports ≤ errorBits (arrivedIn r s.made)
  thr : ∀ k, s.fe.ctr k ≤ c.err.thr
  few : ∀ j, s.fe.ctr j ≤ (done.filter (·.testBit j)).length
  sub : (s.sent.map (·.2)).Sublist done
  bit : ∀ x ∈ s.sent, ∃ j, j < 16 ∧ x.2.testBit j = true
  proc : s.fe.processed = cur.length
  pass : ∀ j, p j ≤ s.fe.ctr j + (cur.length + 9999) / 10000
  fwd : (sentIn s.run s.sent).length ≤ ((List.range 16).map p).sum
  subNow : (sentIn s.run s.sent).Sublist cur
  subAll : ∀ r, (sentIn r s.sent).Sublist (arrivedIn r s.made)
  bound : ∀ r, (sentIn r s.sent).length ≤ 16 * (c.err.thr + ((arrivedIn r s.made).length + 9999) / 10000)

theorem inv_init (c : Cfg) : Inv c St.init [] [] (fun _ => 0) :=
  ⟨rfl, rfl, rfl, rfl, fun _ => ⟨rfl, rfl⟩, by simp [St.init], by simp [St.init], by simp [St.init], rfl,
    by intro r; simp [St.init, reportedIn], by intro k; exact Nat.zero_le _, by intro j; exact Nat.zero_le _,
    List.Sublist.slnil, by simp [St.init], rfl, by intro j; exact Nat.zero_le _, by simp [St.init, sentIn],
    by simp [St.init, sentIn], by intro r; simp [St.init, sentIn], by intro r; simp [St.init, sentIn]⟩

theorem inv_step {c : Cfg} (hw : c.wib = true) {s s' : St} {done cur p} (h : Inv c s done cur p) (st : Step c s s') :
    ∃ done' cur' p', Inv c s' done' cur' p' := by
  cases st with
  | startLink hc =>
    obtain ⟨hq, hf⟩ := h.down hc
    have hm : ∀ x ∈ s.made, x.run < s.run + 1 := fun x hx => by have := h.mrun x hx; omega
    have hr : ∀ x ∈ s.reports, x.1 < s.run + 1 := fun x hx => by have := h.rrun x hx; omega
    have hs : ∀ x ∈ s.sent, x.1 < s.run + 1 := fun x hx => by have := h.srun x hx; omega
    refine ⟨done, [], fun _ => 0, h.gen, h.words, h.all, ?_, by simp [startLink],
      fun x hx => Nat.le_of_lt (hm x hx), fun x hx => Nat.le_of_lt (hr x hx), fun x hx => Nat.le_of_lt (hs x hx), ?_,
      h.earlier, h.thr, h.few, h.sub, h.bit, rfl, by intro j; exact Nat.zero_le _, ?_,
      (by show (sentIn (s.run + 1) s.sent).Sublist []; rw [sentIn_new hs]; exact List.Sublist.slnil), h.subAll, h.bound⟩
    · show arrivedIn (s.run + 1) s.made = [] ++ s.frames ++ s.queue.flatten
      rw [arrivedIn_new hm, hq, hf]; rfl
    · show reportedIn (s.run + 1) s.reports + 0 = _
      rw [reportedIn_new hr]; rfl
    · show (sentIn (s.run + 1) s.sent).length ≤ _
      rw [sentIn_new hs]; exact Nat.zero_le _
  | startCard hc =>
    exact ⟨done, cur, p, h.gen, h.words, h.all, h.now, by simp, h.mrun, h.rrun, h.srun, h.count, h.earlier, h.thr, h.few,
      h.sub, h.bit, h.proc, h.pass, h.fwd, h.subNow, h.subAll, h.bound⟩
  | drop hc hd =>
    exact ⟨done, cur, p, h.gen, h.words, h.all, h.now, by simp [hc], h.mrun, h.rrun, h.srun, h.count, h.earlier, h.thr,
      h.few, h.sub, h.bit, h.proc, h.pass, h.fwd, h.subNow, h.subAll, h.bound⟩
  | stopCard hc =>
    exact ⟨done, cur, p, h.gen, h.words, h.all, h.now, by simp, h.mrun, h.rrun, h.srun, h.count, h.earlier, h.thr, h.few,
      h.sub, h.bit, h.proc, h.pass, h.fwd, h.subNow, h.subAll, h.bound⟩
  | stopLink hc hq hf =>
    exact ⟨done, cur, p, h.gen, h.words, h.all, h.now, fun _ => ⟨hq, hf⟩, h.mrun, h.rrun, h.srun, h.count, h.earlier,
      h.thr, h.few, h.sub, h.bit, h.proc, h.pass, h.fwd, h.subNow, h.subAll, h.bound⟩
  | create old hc hd hf =>
    have hg := draw_gens c.tables (12 * s.made.length) 12
    rw [← h.gen] at hg
    have hm : (create c s old).made = s.made ++ [⟨s.run, (draw c.tables 12 s.gen).2, decide (s.queue.length + 1 ≤ c.cap)⟩] := by
      simp only [create, fakeErrors, hw, if_true]
    have hq : (create c s old).queue = if decide (s.queue.length + 1 ≤ c.cap) = true then s.queue ++ [(draw c.tables 12 s.gen).2] else s.queue := by
      simp only [create, fakeErrors, hw, if_true]
    have hge : (create c s old).gen = (draw c.tables 12 s.gen).1 := by simp only [create]
    have hrest : (create c s old).ctl = s.ctl ∧ (create c s old).run = s.run ∧ (create c s old).frames = s.frames ∧
        (create c s old).fe = s.fe ∧ (create c s old).sent = s.sent ∧ (create c s old).reports = s.reports := by
      simp only [create, and_self]
    obtain ⟨e1, e2, e3, e4, e5, e6⟩ := hrest
    generalize create c s old = s' at *
    generalize draw c.tables 12 s.gen = r at *
    have hlen : 12 * s'.made.length = 12 * s.made.length + 12 := by rw [hm]; simp; omega
    have hmono : ∀ r, (arrivedIn r s.made) <+: arrivedIn r s'.made := by
      intro r; rw [hm, arrivedIn_append]; exact ⟨_, rfl⟩
    refine ⟨done, cur, p, ?_, ?_, ?_, ?_, (by rw [e1, hc]; intro hx; cases hx), ?_, by rw [e2, e6]; exact h.rrun,
      by rw [e2, e5]; exact h.srun, by rw [e2, e4, e6]; exact h.count, ?_, by rw [e4]; exact h.thr, by rw [e4]; exact h.few,
      by rw [e5]; exact h.sub, by rw [e5]; exact h.bit, by rw [e4]; exact h.proc, by rw [e4]; exact h.pass,
      by rw [e2, e5]; exact h.fwd, by rw [e2, e5]; exact h.subNow,
      (by intro r; rw [e5]; exact (h.subAll r).trans (hmono r).sublist), ?_⟩
    · rw [hlen, hge]; exact hg.1
    · rw [hlen, hm, List.map_append, List.flatten_append, h.words]
      simpa using hg.2
    · rw [hm, arrived_append, h.all, hq, e3]
      by_cases hroom : s.queue.length + 1 ≤ c.cap
      · simp [hroom, arrived]
      · simp [hroom, arrived]
    · rw [hm, e2, arrivedIn_append, h.now, hq, e3]
      by_cases hroom : s.queue.length + 1 ≤ c.cap
      · simp [hroom, arrivedIn]
      · simp [hroom, arrivedIn]
    · intro x hx
      rw [hm] at hx
      simp only [List.mem_append, List.mem_singleton] at hx
      rw [e2]
      rcases hx with hx | hx
      · exact h.mrun x hx
      · subst hx; exact Nat.le_refl _
    · intro r
      obtain ⟨t, ht⟩ := hmono r
      rw [← ht, errorBits_append, e6]
      have := h.earlier r
      omega
    · intro r
      obtain ⟨t, ht⟩ := hmono r
      rw [← ht, List.length_append, e5]
      have := h.bound r
      have h2 : ((arrivedIn r s.made).length + 9999) / 10000 ≤ ((arrivedIn r s.made).length + t.length + 9999) / 10000 :=
        Nat.div_le_div_right (by omega)
      omega
  | take pl q hc hf hq =>
    have hall := h.all
    have hnow := h.now
    rw [hf, hq] at hall hnow
    refine ⟨done, cur, p, h.gen, h.words, ?_, ?_, fun hx => absurd hx hc, h.mrun, h.rrun, h.srun, h.count, h.earlier, h.thr,
      h.few, h.sub, h.bit, h.proc, h.pass, h.fwd, h.subNow, h.subAll, h.bound⟩
    · show arrived s.made = _
      rw [hall]; simp [hw]
    · show arrivedIn s.run s.made = _
      rw [hnow]; simp [hw]
  | report hwib =>
    refine ⟨done, cur, p, h.gen, h.words, h.all, h.now, h.down, h.mrun, ?_, h.srun, ?_, ?_, h.thr, h.few, h.sub, h.bit,
      h.proc, h.pass, h.fwd, h.subNow, h.subAll, h.bound⟩
    · intro x hx
      simp only [List.mem_append, List.mem_singleton] at hx
      rcases hx with hx | hx
      · exact h.rrun x hx
      · subst hx; exact Nat.le_refl _
    · have := h.count
      simp only [reportedIn_append]
      simp only [reportedIn, List.filter_cons, List.filter_nil, decide_true, if_true, List.map_cons, List.map_nil,
        List.sum_cons, List.sum_nil] at this ⊢
      omega
    · intro r
      simp only [reportedIn_append]
      by_cases hr : s.run = r
      · subst hr
        have hc := h.count
        have hle : errorBits cur ≤ errorBits (arrivedIn s.run s.made) := by
          rw [h.now, List.append_assoc, errorBits_append]; omega
        have e : reportedIn s.run [(s.run, s.fe.total)] = s.fe.total := by simp [reportedIn]
        rw [e]; omega
      · have e : reportedIn r [(s.run, s.fe.total)] = 0 := by simp [reportedIn, hr]
        rw [e]; exact h.earlier r
  | check w ws ok hf =>
    obtain ⟨f1, f2, f3, f4, f5, f6⟩ := FrameErr.frame_spec c.err s.fe ⟨w, ok⟩ h.thr
    have hall := h.all
    have hnow := h.now
    rw [hf] at hall hnow
    have hdecle : ∀ j, FrameErr.decay c.err s.fe j ≤ s.fe.ctr j := by
      intro j; unfold FrameErr.decay; split
      · exact Nat.sub_le _ _
      · exact Nat.le_refl _
    have hpe : (FrameErr.frame c.err s.fe ⟨w, ok⟩).2.pushes = 0 ∨
        ((FrameErr.frame c.err s.fe ⟨w, ok⟩).2.pushes = 1 ∧ ∃ j, j < 16 ∧ w.testBit j = true ∧
          j ∈ (FrameErr.frame c.err s.fe ⟨w, ok⟩).2.passed) := by
      rcases Nat.eq_zero_or_pos (FrameErr.frame c.err s.fe ⟨w, ok⟩).2.pushes with h0 | h0
      · exact Or.inl h0
      · have h1 : (FrameErr.frame c.err s.fe ⟨w, ok⟩).2.pushes = 1 := by omega
        obtain ⟨j, hj⟩ := List.exists_mem_of_ne_nil _ (f3 h1)
        have := (f4 j).1 hj
        exact Or.inr ⟨h1, j, this.1, this.2.1, hj⟩
    have hp' : ∀ j, (fun j => p j + if j ∈ (FrameErr.frame c.err s.fe ⟨w, ok⟩).2.passed then 1 else 0) j ≤
        (FrameErr.frame c.err s.fe ⟨w, ok⟩).1.ctr j + ((cur ++ [w]).length + 9999) / 10000 := by
      intro j
      have hpj := h.pass j
      have hdec : s.fe.ctr j ≤ FrameErr.decay c.err s.fe j + (if cur.length % 10000 = 0 then 1 else 0) := by
        rw [← h.proc]
        unfold FrameErr.decay
        split
        · show s.fe.ctr j ≤ s.fe.ctr j - 1 + 1; omega
        · omega
      have hlen : (cur ++ [w]).length = cur.length + 1 := by simp
      rw [hlen]
      have h5 := f5 j
      by_cases hm : j ∈ (FrameErr.frame c.err s.fe ⟨w, ok⟩).2.passed
      · have := h5.1 hm
        simp only [hm, if_true]
        split at hdec <;> omega
      · have := h5.2 hm
        simp only [hm, if_false]
        split at hdec <;> omega
    have hfwd : (sentIn s.run (check c s w ws ok).sent).length ≤
        ((List.range 16).map (fun j => p j + if j ∈ (FrameErr.frame c.err s.fe ⟨w, ok⟩).2.passed then 1 else 0)).sum := by
      simp only [check]
      rw [sentIn_append, List.length_append]
      have h0 := h.fwd
      rcases hpe with he | ⟨he, j, hj, -, hm⟩
      · rw [he]
        have := sum_range_mono 16 p (fun j => p j + if j ∈ (FrameErr.frame c.err s.fe ⟨w, ok⟩).2.passed then 1 else 0)
          (fun j => Nat.le_add_right _ _)
        simp only [sentIn, List.replicate_zero, List.filter_nil, List.map_nil, List.length_nil] at *
        omega
      · rw [he]
        have := sum_range_lt 16 p (fun j => p j + if j ∈ (FrameErr.frame c.err s.fe ⟨w, ok⟩).2.passed then 1 else 0)
          (fun j => Nat.le_add_right _ _) j hj (by simp [hm])
        have e : (sentIn s.run (List.replicate 1 (s.run, w))).length = 1 := by simp [sentIn]
        rw [e]; omega
    have hsub : (sentIn s.run (check c s w ws ok).sent).Sublist (cur ++ [w]) := by
      simp only [check]
      rw [sentIn_append]
      refine List.Sublist.append h.subNow ?_
      rcases hpe with he | ⟨he, -⟩
      · rw [he]; simp [sentIn]
      · rw [he]; simp [sentIn]
    have hother : ∀ r, s.run ≠ r → sentIn r (check c s w ws ok).sent = sentIn r s.sent := by
      intro r hr
      simp only [check]
      rw [sentIn_append]
      have : sentIn r (List.replicate (FrameErr.frame c.err s.fe ⟨w, ok⟩).2.pushes (s.run, w)) = [] := by
        unfold sentIn
        rw [List.filter_eq_nil_iff.2]
        · rfl
        · intro x hx; rw [List.eq_of_mem_replicate hx]; simp [hr]
      rw [this, List.append_nil]
    refine ⟨done ++ [w], cur ++ [w], _, h.gen, h.words, ?_, ?_, ?_, h.mrun, h.rrun, ?_, ?_, h.earlier, f1, ?_, ?_, ?_, ?_,
      hp', hfwd, hsub, ?_, ?_⟩
    · show arrived s.made = _
      rw [hall]; simp [check]
    · show arrivedIn s.run s.made = _
      rw [hnow]; simp [check]
    · intro hc
      have := (h.down hc).2
      rw [hf] at this; cases this
    · intro x hx
      simp only [check, List.mem_append] at hx
      rcases hx with hx | hx
      · exact h.srun x hx
      · rw [List.eq_of_mem_replicate hx]; exact Nat.le_refl _
    · have := h.count
      show reportedIn s.run s.reports + (s.fe.total + FrameErr.popcount w) = _
      rw [errorBits_append, FrameErr.popcount_bitsSet]
      simp only [errorBits, List.map_cons, List.map_nil, List.sum_cons, List.sum_nil] at this ⊢
      omega
    · intro j
      show (FrameErr.frame c.err s.fe ⟨w, ok⟩).1.ctr j ≤ _
      rw [List.filter_append, List.length_append]
      have h1 := h.few j
      have h2 := hdecle j
      have h5 := f5 j
      by_cases hm : j ∈ (FrameErr.frame c.err s.fe ⟨w, ok⟩).2.passed
      · have hb := ((f4 j).1 hm).2.1
        simp only at hb
        have := h5.1 hm
        simp only [List.filter_cons, hb, if_true, List.filter_nil, List.length_cons, List.length_nil]
        omega
      · have := h5.2 hm
        omega
    · show ((s.sent ++ List.replicate _ (s.run, w)).map (·.2)).Sublist _
      rw [List.map_append]
      refine List.Sublist.append h.sub ?_
      rcases hpe with he | ⟨he, -⟩
      · rw [he]; simp
      · rw [he]; simp
    · intro x hx
      simp only [check, List.mem_append] at hx
      rcases hx with hx | hx
      · exact h.bit x hx
      · rcases hpe with he | ⟨he, j, hj, hb, -⟩
        · rw [he] at hx; simp at hx
        · rw [List.eq_of_mem_replicate hx]; exact ⟨j, hj, hb⟩
    · show s.fe.processed + 1 = _
      rw [h.proc]; simp
    · intro r
      by_cases hr : s.run = r
      · subst hr
        refine hsub.trans ?_
        show (cur ++ [w]).Sublist (arrivedIn s.run s.made)
        rw [hnow]
        have e : cur ++ (w :: ws) ++ s.queue.flatten = (cur ++ [w]) ++ (ws ++ s.queue.flatten) := by simp
        rw [e]
        exact List.sublist_append_left _ _
      · rw [hother r hr]; exact h.subAll r
    · intro r
      by_cases hr : s.run = r
      · subst hr
        have hb : ∀ j, (fun j => p j + if j ∈ (FrameErr.frame c.err s.fe ⟨w, ok⟩).2.passed then 1 else 0) j ≤
            c.err.thr + ((arrivedIn s.run s.made).length + 9999) / 10000 := by
          intro j
          have h1 := hp' j
          have h2 := f1 j
          have h3 : ((cur ++ [w]).length + 9999) / 10000 ≤ ((arrivedIn s.run s.made).length + 9999) / 10000 := by
            apply Nat.div_le_div_right
            rw [hnow]; simp
          omega
        exact Nat.le_trans hfwd (sum_range_le 16 _ _ hb)
      · rw [hother r hr]; exact h.bound r

theorem inv_reach {c : Cfg} (hw : c.wib = true) {s : St} (h : Reach c s) : ∃ done cur p, Inv c s done cur p := by
  induction h with
  | init => exact ⟨_, _, _, inv_init c⟩
  | step s s' _ st ih =>
    obtain ⟨d, k, p, hi⟩ := ih
    exact inv_step hw hi st

theorem draw_length (t : Emu.Tables) (n : Nat) (g : Emu.Gen) : (draw t n g).2.length = n := by
  induction n with
  | zero => rfl
  | succ n ih => simp [draw, ih]

theorem made_step {c : Cfg} {s s' : St} {P : Made → Prop} (h : ∀ x ∈ s.made, P x) (st : Step c s s')
    (hn : ∀ old run ar, old ∈ c.file → P ⟨run, fakeErrors c.wib old (draw c.tables 12 s.gen).2, ar⟩) :
    ∀ x ∈ s'.made, P x := by
  cases st with
  | create old hc hd hf =>
    intro x hx
    simp only [create, List.mem_append, List.mem_singleton] at hx
    rcases hx with hx | hx
    · exact h x hx
    · rw [hx]; exact hn old _ _ (List.mem_of_getElem? hf)
  | _ => exact h

theorem le_sum {l : List Nat} {x : Nat} (h : x ∈ l) : x ≤ l.sum := by
  induction l with
  | nil => cases h
  | cons a l ih =>
    rw [List.sum_cons]
    rcases List.mem_cons.1 h with h | h
    · omega
    · have := ih h; omega

/-! ### Concrete executions -/

/-- Moves of a deterministic schedule; the queue of errored frames takes everything. -/
inductive Mv where
  | startLink | startCard | create | drop | stopCard | take | check | stopLink | report

def mv (c : Cfg) (s : St) : Mv → Option St
  | .startLink => if s.ctl = .down then some (startLink s) else none
  | .startCard => if s.ctl = .linkUp then some { s with ctl := .up, di := 0, offset := 0 } else none
  | .create =>
    match c.file[nextElem c s]? with
    | none => none
    | some old => if s.ctl = .up ∧ c.drops[s.di]? = some true then some (create c s old) else none
  | .drop =>
    if s.ctl = .up ∧ c.drops[s.di]? = some false then
      some { s with di := (s.di + 1) % c.drops.length, offset := nextElem c s } else none
  | .stopCard => if s.ctl = .up then some { s with ctl := .cardDown } else none
  | .take =>
    match s.queue with
    | [] => none
    | p :: q => if s.ctl ≠ .down ∧ s.frames = [] then some { s with queue := q, frames := if c.wib then p else [] } else none
  | .check =>
    match s.frames with
    | [] => none
    | w :: ws => some (check c s w ws (fun _ => true))
  | .stopLink => if s.ctl = .cardDown ∧ s.queue = [] ∧ s.frames = [] then some { s with ctl := .down } else none
  | .report =>
    if c.wib = true then some { s with fe := { s.fe with total := 0 }, reports := s.reports ++ [(s.run, s.fe.total)] } else none

theorem mv_step {c : Cfg} {s s' : St} {m : Mv} (h : mv c s m = some s') : Step c s s' := by
  cases m with
  | startLink => simp only [mv] at h; split at h <;> cases h; exact .startLink s (by assumption)
  | startCard => simp only [mv] at h; split at h <;> cases h; exact .startCard s (by assumption)
  | create =>
    simp only [mv] at h
    split at h
    · cases h
    · rename_i old ho
      split at h <;> cases h
      rename_i hx
      exact .create s old hx.1 hx.2 ho
  | drop => simp only [mv] at h; split at h <;> cases h; rename_i hx; exact .drop s hx.1 hx.2
  | stopCard => simp only [mv] at h; split at h <;> cases h; exact .stopCard s (by assumption)
  | take =>
    simp only [mv] at h
    split at h
    · cases h
    · rename_i p q hq
      split at h <;> cases h
      rename_i hx
      exact .take s p q hx.1 hx.2 hq
  | check =>
    simp only [mv] at h
    split at h
    · cases h
    · rename_i w ws hf
      cases h
      exact .check s w ws _ hf
  | stopLink => simp only [mv] at h; split at h <;> cases h; rename_i hx; exact .stopLink s hx.1 hx.2.1 hx.2.2
  | report => simp only [mv] at h; split at h <;> cases h; exact .report s (by assumption)

def moves (c : Cfg) (s : St) : List Mv → Option St
  | [] => some s
  | m :: ms => (mv c s m).bind (fun s' => moves c s' ms)

theorem reach_moves {c : Cfg} {s s' : St} (hs : Reach c s) {ms : List Mv} (h : moves c s ms = some s') : Reach c s' := by
  induction ms generalizing s with
  | nil => cases h; exact hs
  | cons m ms ih =>
    simp only [moves, Option.bind_eq_some_iff] at h
    obtain ⟨s1, h1, h2⟩ := h
    exact ih (.step _ _ hs (mv_step h1)) h2

/-- What is observed of a state. -/
structure View where
  ctl : Ctl
  run : Nat
  sent : List (Nat × Nat)
  reports : List (Nat × Nat)
  made : List Made
  left : Nat
  total : Nat
  deriving DecidableEq

def view (s : St) : View := ⟨s.ctl, s.run, s.sent, s.reports, s.made, s.frames.length + s.queue.length, s.fe.total⟩

theorem moves_view {c : Cfg} {ms : List Mv} {v : View} (h : (moves c St.init ms).map view = some v) :
    ∃ s, Reach c s ∧ view s = v := by
  rw [Option.map_eq_some_iff] at h
  obtain ⟨s, h1, h2⟩ := h
  exact ⟨s, reach_moves .init h1, h2⟩

/-- One clean frame, then twelve with the lowest bit, and so on; threshold two; the file has frames with bit 2. -/
def demoCfg : Cfg :=
  ⟨⟨fun _ => 1, fun _ => 12, fun _ => 1⟩, [true], [[4, 4, 4, 4, 4, 4, 4, 4, 4, 4, 4, 4]], 10, ⟨2, 10000⟩, true⟩

/-- A payload is created, taken and checked. -/
def onePayload : List Mv := [.create, .take] ++ List.replicate 12 .check

/-- A run with one payload. -/
def oneRun : List Mv := [.startLink, .startCard] ++ onePayload ++ [.stopCard, .stopLink]

/-! ### Property C124 -/

/-- **C124 (what is injected)** On a WIB link, over any number of runs: every payload created by the emulator carries the
next twelve words of the error generator, one per frame; none is skipped or used twice, whatever the file holds, whatever
is dropped out and whatever was lost at the queue. -/
theorem C124_words (c : Cfg) (hw : c.wib = true) (s : St) (h : Reach c s) :
    (s.made.map (·.words)).flatten =
      ((List.range (12 * s.made.length)).flatMap (Emu.stretch c.tables)).take (12 * s.made.length) ∧
    ∀ x ∈ s.made, x.words.length = 12 := by
  obtain ⟨d, k, p, hi⟩ := inv_reach hw h
  refine ⟨by rw [hi.words, Emu.C62_stretches], ?_⟩
  clear hi
  induction h with
  | init => simp [St.init]
  | step s s' _ st ih =>
    refine made_step ih st ?_
    intro old run ar _
    simp [fakeErrors, hw, draw_length]

example : ∃ s, Reach demoCfg s ∧ s.made = [⟨1, [0, 1, 1, 1, 1, 1, 1, 1, 1, 1, 1, 1], true⟩] := by
  obtain ⟨s, hs, hv⟩ := moves_view (c := demoCfg) (ms := oneRun)
    (v := ⟨.down, 1, [(1, 1), (1, 1)], [], [⟨1, [0, 1, 1, 1, 1, 1, 1, 1, 1, 1, 1, 1], true⟩], 0, 11⟩) (by decide +kernel)
  exact ⟨s, hs, congrArg View.made hv⟩

/-- **C124 (reports)** On a WIB link: in the current run what was reported, what the next report will show, and the error
bits of the frames not yet checked add up to the error bits of the frames that arrived in this run; in no run is more
reported than arrived. -/
theorem C124_counted (c : Cfg) (hw : c.wib = true) (s : St) (h : Reach c s) :
    reportedIn s.run s.reports + s.fe.total + errorBits s.frames + errorBits s.queue.flatten =
      errorBits (arrivedIn s.run s.made) ∧
    (s.ctl = .down → reportedIn s.run s.reports + s.fe.total = errorBits (arrivedIn s.run s.made)) ∧
    ∀ r, reportedIn r s.reports ≤ errorBits (arrivedIn r s.made) := by
  obtain ⟨d, k, p, hi⟩ := inv_reach hw h
  have h1 : reportedIn s.run s.reports + s.fe.total + errorBits s.frames + errorBits s.queue.flatten =
      errorBits (arrivedIn s.run s.made) := by
    rw [hi.now, errorBits_append, errorBits_append, hi.count]
  refine ⟨h1, ?_, hi.earlier⟩
  intro hd
  obtain ⟨hq, hf⟩ := hi.down hd
  rw [hq, hf] at h1
  simpa [errorBits] using h1

/-- Non-vacuity: eleven error bits, all reported after the run. -/
example : ∃ s, Reach demoCfg s ∧ s.ctl = .down ∧ reportedIn 1 s.reports = 11 ∧ errorBits (arrivedIn 1 s.made) = 11 := by
  obtain ⟨s, hs, hv⟩ := moves_view (c := demoCfg) (ms := oneRun ++ [.report])
    (v := ⟨.down, 1, [(1, 1), (1, 1)], [(1, 11)], [⟨1, [0, 1, 1, 1, 1, 1, 1, 1, 1, 1, 1, 1], true⟩], 0, 0⟩) (by decide +kernel)
  refine ⟨s, hs, congrArg View.ctl hv, ?_, ?_⟩
  · have : s.reports = _ := congrArg View.reports hv
    rw [this]; decide
  · have : s.made = _ := congrArg View.made hv
    rw [this]; decide

/-- **C124 (errored frames)** On a WIB link: the frames forwarded in a run are frames that arrived in this run, in order, none
twice; each has an error bit set; and they are at most sixteen times the threshold plus one per ten thousand frames. -/
theorem C124_forwarded (c : Cfg) (hw : c.wib = true) (s : St) (h : Reach c s) (r : Nat) :
    (sentIn r s.sent).Sublist (arrivedIn r s.made) ∧
    (∀ w ∈ sentIn r s.sent, ∃ j, j < 16 ∧ w.testBit j = true) ∧
    (sentIn r s.sent).length ≤ 16 * (c.err.thr + ((arrivedIn r s.made).length + 9999) / 10000) := by
  obtain ⟨d, k, p, hi⟩ := inv_reach hw h
  refine ⟨hi.subAll r, ?_, hi.bound r⟩
  intro w hx
  simp only [sentIn, List.mem_map, List.mem_filter] at hx
  obtain ⟨x, ⟨hx, -⟩, rfl⟩ := hx
  exact hi.bit x hx

/-- **C124 (first errors)** On a WIB link, if the queue of errored frames takes everything: a frame with an error bit that
fewer frames than the threshold have had since the link was configured is forwarded. -/
theorem C124_first_forwarded (c : Cfg) (hw : c.wib = true) (s : St) (h : Reach c s) (w : Nat) (ws : List Nat)
    (hf : s.frames = w :: ws) (j : Nat) (hj : j < 16) (hb : w.testBit j = true)
    (hfew : ((checked s).filter (·.testBit j)).length < c.err.thr) :
    (check c s w ws (fun _ => true)).sent = s.sent ++ [(s.run, w)] := by
  obtain ⟨d, k, p, hi⟩ := inv_reach hw h
  have hc : checked s = d := by
    unfold checked
    rw [hi.all]
    have : (d ++ s.frames ++ s.queue.flatten).length - (s.frames.length + s.queue.flatten.length) = d.length := by
      simp only [List.length_append]; omega
    rw [this, List.append_assoc, List.take_left]
  rw [hc] at hfew
  obtain ⟨f1, f2, f3, f4, f5, f6⟩ := FrameErr.frame_spec c.err s.fe ⟨w, fun _ => true⟩ hi.thr
  have hdec : FrameErr.decay c.err s.fe j ≤ s.fe.ctr j := by
    unfold FrameErr.decay; split
    · exact Nat.sub_le _ _
    · exact Nat.le_refl _
  have hp : j ∈ (FrameErr.frame c.err s.fe ⟨w, fun _ => true⟩).2.passed :=
    (f4 j).2 ⟨hj, hb, by have := hi.few j; omega⟩
  have h1 := f6 (fun _ => rfl) (List.ne_nil_of_mem hp)
  simp only [check, h1]
  rfl

/-- Non-vacuity: the second of the frames with the lowest bit, threshold two. -/
example : ∃ s, Reach demoCfg s ∧ (∃ ws, s.frames = 1 :: ws) ∧ ((checked s).filter (·.testBit 0)).length = 1 := by
  have h : ((moves demoCfg St.init ([.startLink, .startCard, .create, .take, .check, .check])).map
      (fun s => (s.frames.head?, ((checked s).filter (·.testBit 0)).length))) = some (some 1, 1) := by decide +kernel
  rw [Option.map_eq_some_iff] at h
  obtain ⟨s, h1, h2⟩ := h
  simp only [Prod.mk.injEq] at h2
  refine ⟨s, reach_moves .init h1, ?_, h2.2⟩
  cases hf : s.frames with
  | nil => rw [hf] at h2; simp at h2
  | cons w ws => rw [hf] at h2; simp at h2; exact ⟨ws, by rw [h2.1]⟩

/-- **C124 is false of the code (threshold of a run)**: the throttle is not reset by a start. With a threshold of two the
first run forwards two frames, the second one only one of its eleven errored frames. -/
theorem C124_next_run_counterexample : ∃ s, Reach demoCfg s ∧ s.ctl = .down ∧ demoCfg.err.thr = 2 ∧
    sentIn 1 s.sent = [1, 1] ∧ sentIn 2 s.sent = [1] ∧ ((arrivedIn 2 s.made).filter (·.testBit 0)).length = 11 := by
  obtain ⟨s, hs, hv⟩ := moves_view (c := demoCfg) (ms := oneRun ++ oneRun)
    (v := ⟨.down, 2, [(1, 1), (1, 1), (2, 1)], [], [⟨1, [0, 1, 1, 1, 1, 1, 1, 1, 1, 1, 1, 1], true⟩,
      ⟨2, [1, 0, 1, 1, 1, 1, 1, 1, 1, 1, 1, 1], true⟩], 0, 11⟩) (by decide +kernel)
  have h1 : s.sent = _ := congrArg View.sent hv
  have h2 : s.made = _ := congrArg View.made hv
  refine ⟨s, hs, congrArg View.ctl hv, rfl, ?_, ?_, ?_⟩
  · rw [h1]; decide
  · rw [h1]; decide
  · rw [h2]; decide

/-- **C124 is false of the code (reports)**: what was counted since the last report is forgotten at the next start. -/
theorem C124_unreported_counterexample : ∃ s, Reach demoCfg s ∧ s.run = 2 ∧ errorBits (arrivedIn 1 s.made) = 11 ∧
    s.reports = [(2, 0)] := by
  obtain ⟨s, hs, hv⟩ := moves_view (c := demoCfg) (ms := oneRun ++ [.startLink, .report])
    (v := ⟨.linkUp, 2, [(1, 1), (1, 1)], [(2, 0)], [⟨1, [0, 1, 1, 1, 1, 1, 1, 1, 1, 1, 1, 1], true⟩], 0, 0⟩) (by decide +kernel)
  have h2 : s.made = _ := congrArg View.made hv
  refine ⟨s, hs, congrArg View.run hv, ?_, congrArg View.reports hv⟩
  rw [h2]; decide

/-- **C124 is false of the code (errors in the file)**: the errors recorded in the file are erased. With an error rate of
zero the link never sees any, whatever the file. -/
theorem C124_file_errors_counterexample (c : Cfg) (hw : c.wib = true) (h0 : ∀ i, c.tables.occ i = 0) (s : St)
    (h : Reach c s) : (∀ x ∈ s.made, ∀ w ∈ x.words, w = 0) ∧ s.sent = [] ∧ ∀ x ∈ s.reports, x.2 = 0 := by
  have hz : ∀ s, Reach c s → ∀ x ∈ s.made, ∀ w ∈ x.words, w = 0 := by
    intro s h x hx w hxw
    obtain ⟨d, k, p, hi⟩ := inv_reach hw h
    apply Emu.C62_rate_zero c.tables h0 (12 * s.made.length)
    rw [← hi.words]
    exact List.mem_flatten.2 ⟨_, List.mem_map.2 ⟨x, hx, rfl⟩, hxw⟩
  have ha : ∀ s, Reach c s → ∀ r, ∀ w ∈ arrivedIn r s.made, w = 0 := by
    intro s h r w hxw
    simp only [arrivedIn, List.mem_flatten, List.mem_map, List.mem_filter] at hxw
    obtain ⟨l, ⟨x, ⟨hx, -⟩, rfl⟩, hl⟩ := hxw
    exact hz s h x hx w hl
  refine ⟨hz s h, ?_, ?_⟩
  · cases hs : s.sent with
    | nil => rfl
    | cons x xs =>
      obtain ⟨h1, h2, -⟩ := C124_forwarded c hw s h x.1
      have hm : x.2 ∈ sentIn x.1 s.sent := by
        rw [hs]; simp [sentIn]
      obtain ⟨j, -, hj⟩ := h2 _ hm
      have := ha s h x.1 _ (h1.subset hm)
      rw [this] at hj; simp at hj
  · intro x hx
    have h3 := (C124_counted c hw s h).2.2 x.1
    have h4 : errorBits (arrivedIn x.1 s.made) = 0 := by
      unfold errorBits
      have : (arrivedIn x.1 s.made).map (FrameErr.bitsSet 16) = (arrivedIn x.1 s.made).map (fun _ => 0) := by
        apply List.map_congr_left
        intro w hwm
        rw [ha s h x.1 w hwm]; decide
      rw [this]
      induction arrivedIn x.1 s.made with
      | nil => rfl
      | cons _ _ ih => simpa using ih
    have h5 : x.2 ≤ reportedIn x.1 s.reports := by
      unfold reportedIn
      exact le_sum (List.mem_map.2 ⟨x, List.mem_filter.2 ⟨hx, by simp⟩, rfl⟩)
    omega

/-- The file of the demonstration holds errors. -/
example : ∃ s, Reach { demoCfg with tables := ⟨fun _ => 1, fun _ => 0, fun _ => 1⟩ } s ∧ s.made ≠ [] ∧
    (∃ p ∈ demoCfg.file, 4 ∈ p) := by
  obtain ⟨s, hs, hv⟩ := moves_view (c := { demoCfg with tables := ⟨fun _ => 1, fun _ => 0, fun _ => 1⟩ })
    (ms := [.startLink, .startCard, .create])
    (v := ⟨.up, 1, [], [], [⟨1, List.replicate 12 0, true⟩], 1, 0⟩) (by decide +kernel)
  have h2 : s.made = _ := congrArg View.made hv
  exact ⟨s, hs, by rw [h2]; simp, by decide⟩

/-- Specification: the payloads created in run `r`. -/
def madeIn (r : Nat) (m : List Made) : List Made := m.filter (fun x => x.run == r)

/-- Payloads created so far in the runs: not in later ones, none before the card is started, and the producer is at the place
of the file where as many have been created. -/
structure Turn (c : Cfg) (s : St) : Prop where
  runs : ∀ x ∈ s.made, x.run ≤ s.run
  none : s.ctl = .linkUp → madeIn s.run s.made = []
  place : s.ctl = .up → nextElem c s = (madeIn s.run s.made).length % c.file.length
  words : ∀ r i x, (madeIn r s.made)[i]? = some x → c.file[i % c.file.length]? = some x.words

theorem turn_reach {c : Cfg} (hw : c.wib = false) {s : St} (h : Reach c s) : Turn c s := by
  induction h with
  | init => exact ⟨by simp [St.init], by simp [St.init], by simp [St.init], by simp [St.init, madeIn]⟩
  | step s s' _ st ih =>
    obtain ⟨h1, h2, h3, h4⟩ := ih
    cases st with
    | startLink hc =>
      refine ⟨fun x hx => Nat.le_succ_of_le (h1 x hx), ?_, by simp [startLink], h4⟩
      intro _
      show madeIn (s.run + 1) s.made = []
      apply List.filter_eq_nil_iff.2
      intro x hx
      have := h1 x hx
      simp only [beq_iff_eq]; omega
    | startCard hc =>
      refine ⟨h1, by simp, ?_, h4⟩
      intro _
      show nextElem c _ = (madeIn s.run s.made).length % c.file.length
      rw [h2 hc]
      simp [nextElem]
    | create old hc hd hf =>
      have hm : (create c s old).made = s.made ++ [⟨s.run, old, decide (s.queue.length + 1 ≤ c.cap)⟩] := by
        simp only [create, fakeErrors, hw, Bool.false_eq_true, if_false]
      have ho : (create c s old).offset = nextElem c s + 1 := by simp only [create]
      have hr : (create c s old).run = s.run ∧ (create c s old).ctl = s.ctl := by simp only [create, and_self]
      generalize create c s old = s' at *
      obtain ⟨hr, hc'⟩ := hr
      have hlt : nextElem c s < c.file.length := (List.getElem?_eq_some_iff.1 hf).1
      refine ⟨?_, ?_, ?_, ?_⟩
      · intro x hx
        rw [hm] at hx
        rw [hr]
        rcases List.mem_append.1 hx with hx | hx
        · exact h1 x hx
        · rw [List.mem_singleton.1 hx]; exact Nat.le_refl _
      · intro hx; rw [hc', hc] at hx; cases hx
      · intro _
        have hl : (madeIn s'.run s'.made).length = (madeIn s.run s.made).length + 1 := by
          rw [hm, hr]; simp [madeIn]
        have hp := h3 hc
        rw [hl]
        show (if s'.offset < c.file.length then s'.offset else 0) = _
        rw [ho, Nat.add_mod, ← hp]
        by_cases h1' : 1 < c.file.length
        · rw [Nat.mod_eq_of_lt h1']
          split
          · rename_i hx; rw [Nat.mod_eq_of_lt hx]
          · have : nextElem c s + 1 = c.file.length := by omega
            rw [this, Nat.mod_self]
        · have : c.file.length = 1 := by omega
          rw [this]; simp [Nat.mod_one]
      · intro r i x hx
        rw [hm] at hx
        have e : madeIn r (s.made ++ [⟨s.run, old, decide (s.queue.length + 1 ≤ c.cap)⟩]) = madeIn r s.made ++
            (if s.run = r then [⟨s.run, old, decide (s.queue.length + 1 ≤ c.cap)⟩] else []) := by
          unfold madeIn
          rw [List.filter_append]
          congr 1
          by_cases e : s.run = r <;> simp [e]
        rw [e] at hx
        by_cases hi : i < (madeIn r s.made).length
        · rw [List.getElem?_append_left hi] at hx
          exact h4 r i x hx
        · rw [List.getElem?_append_right (by omega)] at hx
          by_cases er : s.run = r
          · rw [if_pos er] at hx
            obtain ⟨hz, hv⟩ := List.getElem?_eq_some_iff.1 hx
            simp only [List.length_singleton] at hz
            have hi' : i = (madeIn r s.made).length := by omega
            have hx' : x = ⟨s.run, old, decide (s.queue.length + 1 ≤ c.cap)⟩ := by
              rw [← hv]; simp
            rw [hx', hi', ← er, ← h3 hc]
            exact hf
          · rw [if_neg er] at hx; simp at hx
    | drop hc hd =>
      refine ⟨h1, h2, ?_, h4⟩
      intro hx
      have hp := h3 hx
      show (if nextElem c s < c.file.length then nextElem c s else 0) = (madeIn s.run s.made).length % c.file.length
      rw [← hp]
      split
      · rfl
      · rename_i hn
        unfold nextElem at hn ⊢
        split
        · rename_i hq; rw [if_pos hq] at hn; exact absurd hq hn
        · rfl
    | stopCard hc => exact ⟨h1, (by intro hx; simp at hx), (by intro hx; simp at hx), h4⟩
    | take p q hc hf hq => exact ⟨h1, h2, h3, h4⟩
    | check w ws ok hf => exact ⟨h1, h2, h3, h4⟩
    | stopLink hc hq hf => exact ⟨h1, (by intro hx; simp at hx), (by intro hx; simp at hx), h4⟩
    | report hx => exact ⟨h1, h2, h3, h4⟩

/-- **C124 is false of the code (WIB2 and DAPHNE)**: the configured error rate has no effect there; the payloads created in a
run carry the words of the file, in turn; nothing is forwarded or reported. -/
theorem C124_other_links_counterexample (c : Cfg) (hw : c.wib = false) (s : St) (h : Reach c s) :
    (∀ r i x, (madeIn r s.made)[i]? = some x → c.file[i % c.file.length]? = some x.words) ∧
    s.sent = [] ∧ s.reports = [] := by
  refine ⟨(turn_reach hw h).words, ?_⟩
  have key : s.sent = [] ∧ s.reports = [] ∧ s.frames = [] := by
    induction h with
    | init => simp [St.init]
    | step s s' _ st ih =>
      obtain ⟨h2, h3, h4⟩ := ih
      cases st with
      | check w ws ok hf => rw [h4] at hf; cases hf
      | report hx => rw [hw] at hx; cases hx
      | take p q hc hf hq => exact ⟨h2, h3, by simp [hw]⟩
      | create old hc hd hf =>
        have e : (create c s old).sent = s.sent ∧ (create c s old).reports = s.reports ∧
            (create c s old).frames = s.frames := by simp only [create, and_self]
        generalize create c s old = s' at *
        exact ⟨e.1.trans h2, e.2.1.trans h3, e.2.2.trans h4⟩
      | startLink => exact ⟨h2, h3, h4⟩
      | startCard => exact ⟨h2, h3, h4⟩
      | drop => exact ⟨h2, h3, h4⟩
      | stopCard => exact ⟨h2, h3, h4⟩
      | stopLink => exact ⟨h2, h3, h4⟩
  exact ⟨key.1, key.2.1⟩

example : ∃ s, Reach { demoCfg with wib := false } s ∧ s.made ≠ [] := by
  obtain ⟨s, hs, hv⟩ := moves_view (c := { demoCfg with wib := false }) (ms := [.startLink, .startCard, .create])
    (v := ⟨.up, 1, [], [], [⟨1, List.replicate 12 4, true⟩], 1, 0⟩) (by decide +kernel)
  have h2 : s.made = _ := congrArg View.made hv
  exact ⟨s, hs, by rw [h2]; simp⟩

end Verif.Inject
