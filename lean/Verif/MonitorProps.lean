import Verif.MonitorModel
/- Property C75: monitoring reports. -/
namespace Verif.Monitor

/-- A count as a report can show it: exact below 2^31. -/
def shown (k : Nat) : Nat := asU64 (k % 4294967296)

theorem shown_small {k : Nat} (h : k < 2147483648) : shown k = k := by
  unfold shown asU64; rw [Nat.mod_eq_of_lt (by omega)]; simp [h]

structure Inv (s : St) : Prop where
  num : s.num = s.pending % 4294967296
  reps : s.reports.map (·.1) = s.truth.map (fun t => shown t.1)
  total : s.total = (s.truth.map (·.1)).sum + s.pending + s.zeroedByStart + s.zeroedByThread

theorem inc32_mod (k : Nat) : inc32 (k % 4294967296) = (k + 1) % 4294967296 := by
  unfold inc32; omega

theorem inv_reach {w : Nat} {s : St} (h : Reach w s) : Inv s := by
  induction h with
  | init => exact ⟨rfl, rfl, rfl⟩
  | step s s' _ st ih =>
    cases st with
    | start hs => exact ⟨rfl, ih.reps, by have := ih.total; simp only; omega⟩
    | begin_ i hi hs => exact ⟨rfl, ih.reps, by have := ih.total; simp only; omega⟩
    | incNum i hi hs hm =>
      refine ⟨?_, ih.reps, by have := ih.total; simp only; omega⟩
      simp only [ih.num, inc32_mod]
    | incSum i hi hs hm => exact ⟨ih.num, ih.reps, ih.total⟩
    | report =>
      refine ⟨rfl, ?_, ?_⟩
      · simp only [List.map_append, ih.reps, List.map_cons, List.map_nil, shown, ih.num]
      · have := ih.total
        simp only [List.map_append, List.sum_append, List.map_cons, List.map_nil, List.sum_cons,
          List.sum_nil]
        omega
    | end_ i hi hs hm => exact ⟨ih.num, ih.reps, ih.total⟩

structure Inv1 (s : St) : Prop where
  one : s.armed 0 = true → s.started 0 = false ∧ s.pending = 0 ∧ s.inRun = 0
  sum : s.sum = s.inRun % 4294967296
  reps : s.reports = s.truth.map (fun t => (shown t.1, shown t.2))
  zt : s.zeroedByThread = 0

theorem inv1_reach {s : St} (h : Reach 1 s) : Inv1 s := by
  induction h with
  | init => exact ⟨by simp [St.init], rfl, rfl, rfl⟩
  | step s s' hr st ih =>
    have hz : ∀ i, i < 1 → i = 0 := by omega
    cases st with
    | start hs => exact ⟨fun _ => ⟨(hs 0 (by omega)).1, rfl, rfl⟩, rfl, ih.reps, ih.zt⟩
    | begin_ i hi ha =>
      obtain rfl := hz i hi
      obtain ⟨h1, h2, h3⟩ := ih.one ha
      refine ⟨by simp, ?_, ih.reps, ?_⟩
      · simp [h3]
      · simp [ih.zt, h2]
    | incNum i hi hs hm =>
      obtain rfl := hz i hi
      refine ⟨fun ha => ?_, ih.sum, ih.reps, ih.zt⟩
      have := (ih.one ha).1
      rw [this] at hs; cases hs
    | incSum i hi hs hm =>
      obtain rfl := hz i hi
      refine ⟨fun ha => ?_, ?_, ih.reps, ih.zt⟩
      · have := (ih.one ha).1
        rw [this] at hs; cases hs
      · simp only [ih.sum, inc32_mod]
    | report =>
      refine ⟨fun ha => ?_, ih.sum, ?_, ih.zt⟩
      · obtain ⟨h1, h2, h3⟩ := ih.one ha
        exact ⟨h1, rfl, h3⟩
      · simp only [ih.reps, ih.sum, (inv_reach hr).num, List.map_append, List.map_cons, List.map_nil,
          shown]
    | end_ i hi hs hm =>
      obtain rfl := hz i hi
      refine ⟨fun ha => ?_, ih.sum, ih.reps, ih.zt⟩
      have := (ih.one ha).1
      rw [this] at hs; cases hs

/-- **C75 (payloads, partial)** One counting thread (payload counters): over all runs and reports, every
payload counted is in exactly one report, or still to be reported, or was left unreported at the
next start; a report shows the number since the last report and the total of the run, as long as
these are below 2^31. Missing: larger numbers, where the report is wrong. -/
theorem C75_payload_reports_partial (s : St) (h : Reach 1 s)
    (hsmall : ∀ t ∈ s.truth, t.1 < 2147483648 ∧ t.2 < 2147483648) :
    s.reports = s.truth ∧ s.total = (s.reports.map (·.1)).sum + s.pending + s.zeroedByStart := by
  have h1 := inv1_reach h
  have h0 := inv_reach h
  have e : s.reports = s.truth := by
    rw [h1.reps]
    refine Eq.trans (List.map_congr_left (g := id) ?_) (List.map_id _)
    intro t ht
    obtain ⟨a, b⟩ := hsmall t ht
    simp only [shown_small a, shown_small b, id]
  refine ⟨e, ?_⟩
  rw [e]
  have := h0.total
  rw [h1.zt] at this
  omega

/-- What a report shows in general. -/
theorem C75_payload_reports_shown (s : St) (h : Reach 1 s) :
    s.reports = s.truth.map (fun t => (shown t.1, shown t.2)) := (inv1_reach h).reps

/-- Two payloads, a report, another payload, a report. -/
theorem demo : ∃ s, Reach 1 s ∧ s.truth = [(2, 2), (1, 3)] ∧ s.reports = [(2, 2), (1, 3)] := by
  have r0 : Reach 1 _ := .init
  have r1 := Reach.step _ _ r0 (.start _ (fun i _ => ⟨rfl, rfl⟩))
  have r2 := Reach.step _ _ r1 (.begin_ _ 0 (by decide) rfl)
  have r3 := Reach.step _ _ r2 (.incNum _ 0 (by decide) rfl rfl)
  have r4 := Reach.step _ _ r3 (.incSum _ 0 (by decide) rfl rfl)
  have r5 := Reach.step _ _ r4 (.incNum _ 0 (by decide) rfl rfl)
  have r6 := Reach.step _ _ r5 (.incSum _ 0 (by decide) rfl rfl)
  have r7 := Reach.step _ _ r6 (.report _)
  have r8 := Reach.step _ _ r7 (.incNum _ 0 (by decide) rfl rfl)
  have r9 := Reach.step _ _ r8 (.incSum _ 0 (by decide) rfl rfl)
  have r10 := Reach.step _ _ r9 (.report _)
  exact ⟨_, r10, rfl, rfl⟩

example : ∃ s, Reach 1 s ∧ (∀ t ∈ s.truth, t.1 < 2147483648 ∧ t.2 < 2147483648) ∧ s.reports ≠ [] := by
  obtain ⟨s, h, h1, h2⟩ := demo
  refine ⟨s, h, ?_, by rw [h2]; simp⟩
  rw [h1]; intro t ht; simp at ht; rcases ht with rfl | rfl <;> decide

/-- `k` payloads can always be counted. -/
theorem count_many {s : St} (h : Reach 1 s) (hs : s.started 0 = true) (hm : s.mid 0 = false) (k : Nat) :
    ∃ s', Reach 1 s' ∧ s'.started 0 = true ∧ s'.mid 0 = false ∧ s'.inRun = s.inRun + k := by
  induction k with
  | zero => exact ⟨s, h, hs, hm, rfl⟩
  | succ k ih =>
    obtain ⟨s1, h1, h2, h3, h4⟩ := ih
    have r1 := Reach.step _ _ h1 (.incNum _ 0 (by decide) h2 h3)
    have r2 := Reach.step _ _ r1 (.incSum _ 0 (by decide) h2 (by simp))
    exact ⟨_, r2, h2, by simp, by simp only [h4]; omega⟩

/-- **C75 is false of the code (1)**: after 2^31 payloads in a run (about 3.6 hours at 166 kHz) the
reported total is 18446744071562067968. -/
theorem C75_total_wraps_counterexample :
    ∃ s a, Reach 1 s ∧ s.truth.getLast? = some (a, 2147483648) ∧
      (s.reports.map (·.2)).getLast? = some 18446744071562067968 := by
  have r0 : Reach 1 _ := .init
  have r1 := Reach.step _ _ r0 (.start _ (fun i _ => ⟨rfl, rfl⟩))
  have r2 := Reach.step _ _ r1 (.begin_ _ 0 (by decide) rfl)
  obtain ⟨s, h1, h2, h3, h4⟩ := count_many r2 rfl rfl 2147483648
  have r3 := Reach.step _ _ h1 (.report _)
  refine ⟨_, s.pending, r3, ?_, ?_⟩
  · rw [List.getLast?_append]; simp only [h4]; rfl
  · rw [List.map_append, List.getLast?_append]
    have : s.sum = 2147483648 := by rw [(inv1_reach h1).sum, h4]; rfl
    simp only [this]; rfl

/-- **C75 is false of the code (2)**: with two counting threads (request counters), a request counted by
the first before the second begins is in no report, although reports were made all along. -/
theorem C75_request_lost_counterexample :
    ∃ s, Reach 2 s ∧ s.total = 1 ∧ s.inRun = 1 ∧ s.zeroedByThread = 1 ∧ s.zeroedByStart = 0 ∧
      s.reports = [(0, 0)] := by
  have r0 : Reach 2 _ := .init
  have r1 := Reach.step _ _ r0 (.start _ (fun i _ => ⟨rfl, rfl⟩))
  have r2 := Reach.step _ _ r1 (.begin_ _ 0 (by decide) rfl)
  have r3 := Reach.step _ _ r2 (.incNum _ 0 (by decide) rfl rfl)
  have r4 := Reach.step _ _ r3 (.incSum _ 0 (by decide) rfl rfl)
  have r5 := Reach.step _ _ r4 (.begin_ _ 1 (by decide) rfl)
  have r6 := Reach.step _ _ r5 (.report _)
  exact ⟨_, r6, rfl, rfl, rfl, rfl, rfl⟩

/-- **C75 (requests, partial)** Any number of counting threads: every request counted is in exactly one
report (below 2^31 between reports), or still to be reported, or was zeroed by a start or by a
beginning thread. Missing: the last two are not reported at all. -/
theorem C75_request_reports_partial (w : Nat) (s : St) (h : Reach w s)
    (hsmall : ∀ t ∈ s.truth, t.1 < 2147483648) :
    s.total = (s.reports.map (·.1)).sum + s.pending + s.zeroedByStart + s.zeroedByThread := by
  have h0 := inv_reach h
  have e : s.reports.map (·.1) = s.truth.map (·.1) := by
    rw [h0.reps]
    apply List.map_congr_left
    intro t ht
    exact shown_small (hsmall t ht)
  rw [e]
  have := h0.total
  omega

example : ∃ s, Reach 2 s ∧ (∀ t ∈ s.truth, t.1 < 2147483648) ∧ s.total = 1 ∧
    (s.reports.map (·.1)).sum = 1 := by
  have r0 : Reach 2 _ := .init
  have r1 := Reach.step _ _ r0 (.start _ (fun i _ => ⟨rfl, rfl⟩))
  have r2 := Reach.step _ _ r1 (.begin_ _ 1 (by decide) rfl)
  have r3 := Reach.step _ _ r2 (.begin_ _ 0 (by decide) rfl)
  have r4 := Reach.step _ _ r3 (.incNum _ 0 (by decide) rfl rfl)
  have r5 := Reach.step _ _ r4 (.report _)
  exact ⟨_, r5, by intro t ht; simp [St.init] at ht; subst ht; decide, rfl, rfl⟩

end Verif.Monitor
