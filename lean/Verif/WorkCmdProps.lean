import Verif.WorkCmdModel
/- Property C117: commands of the emulator card and the recorder out of order. -/
namespace Verif.WorkCmd

/-- Specification: a run is going on: a `start` not followed by a `stop`. -/
def Running (es : List Ev) : Prop := ∃ a b, es = a ++ .start :: b ∧ .stop ∉ b

/-- Specification: configured: a `conf` not followed by a `scrap`. -/
def Configured (es : List Ev) : Prop := ∃ a b, es = a ++ .conf :: b ∧ .scrap ∉ b

/-- Specification: for a card: no `start` in a run or before the first `conf`, no `conf` in a run after a
`scrap`. -/
def CardFits (es : List Ev) : Ev → Prop
  | .start => ¬ Running es ∧ .conf ∈ es
  | .conf => Running es → Configured es
  | _ => True

/-- Specification: the recorder's thread is at work: started, not stopped, and no packet came while there was no
file. -/
def Recording (es : List Ev) : Prop := ∃ a b, es = a ++ .start :: b ∧ .stop ∉ b ∧ (.conf ∈ a ∨ .packet ∉ b)

/-- Specification: for a recorder: no `conf` while its thread is at work. -/
def RecFits (es : List Ev) : Ev → Prop
  | .conf => ¬ Recording es
  | _ => True

/-- Specification: every command fits what came before. -/
def All (Fits : List Ev → Ev → Prop) (es : List Ev) : Prop := ∀ a e b, es = a ++ e :: b → Fits a e

theorem snoc_split {α : Type} {es a b : List α} {e x : α} (h : es ++ [e] = a ++ x :: b) :
    (b = [] ∧ es = a ∧ e = x) ∨ ∃ b', b = b' ++ [e] ∧ es = a ++ x :: b' := by
  rcases List.eq_nil_or_concat b with rfl | ⟨b', y, rfl⟩
  · have h' := List.append_inj' h rfl
    exact .inl ⟨rfl, h'.1, by simpa using h'.2⟩
  · rw [List.concat_eq_append, ← List.cons_append, ← List.append_assoc] at h
    have h' := List.append_inj' h rfl
    have hx : e = y := by simpa using h'.2
    exact .inr ⟨b', by rw [List.concat_eq_append, hx], h'.1⟩

theorem all_nil (F : List Ev → Ev → Prop) : All F [] := fun a e b h => by simp at h

theorem all_snoc (F : List Ev → Ev → Prop) (es : List Ev) (e : Ev) : All F (es ++ [e]) ↔ All F es ∧ F es e := by
  constructor
  · intro h
    exact ⟨fun a x b he => h a x (b ++ [e]) (by simp [he]), h es e [] rfl⟩
  · rintro ⟨h1, h2⟩ a x b he
    rcases snoc_split he with ⟨-, rfl, rfl⟩ | ⟨b', -, rfl⟩
    · exact h2
    · exact h1 a x b' rfl

theorem running_snoc (es : List Ev) (e : Ev) :
    Running (es ++ [e]) ↔ e = .start ∨ (Running es ∧ e ≠ .stop) := by
  constructor
  · rintro ⟨a, b, h, hb⟩
    rcases snoc_split h with ⟨-, rfl, rfl⟩ | ⟨b', rfl, rfl⟩
    · exact .inl rfl
    · exact .inr ⟨⟨a, b', rfl, fun hm => hb (by simp [hm])⟩, fun he => hb (by simp [he])⟩
  · rintro (rfl | ⟨⟨a, b, rfl, hb⟩, hne⟩)
    · exact ⟨es, [], by simp, by simp⟩
    · exact ⟨a, b ++ [e], by simp, by simp [hb]; exact fun h => hne h.symm⟩

theorem configured_snoc (es : List Ev) (e : Ev) :
    Configured (es ++ [e]) ↔ e = .conf ∨ (Configured es ∧ e ≠ .scrap) := by
  constructor
  · rintro ⟨a, b, h, hb⟩
    rcases snoc_split h with ⟨-, rfl, rfl⟩ | ⟨b', rfl, rfl⟩
    · exact .inl rfl
    · exact .inr ⟨⟨a, b', rfl, fun hm => hb (by simp [hm])⟩, fun he => hb (by simp [he])⟩
  · rintro (rfl | ⟨⟨a, b, rfl, hb⟩, hne⟩)
    · exact ⟨es, [], by simp, by simp⟩
    · exact ⟨a, b ++ [e], by simp, by simp [hb]; exact fun h => hne h.symm⟩

theorem recording_snoc (es : List Ev) (e : Ev) :
    Recording (es ++ [e]) ↔ e = .start ∨
      ((∃ a b, es = a ++ .start :: b ∧ .stop ∉ b ∧ (.conf ∈ a ∨ (.packet ∉ b ∧ e ≠ .packet))) ∧ e ≠ .stop) := by
  constructor
  · rintro ⟨a, b, h, hb, hc⟩
    rcases snoc_split h with ⟨-, rfl, rfl⟩ | ⟨b', rfl, rfl⟩
    · exact .inl rfl
    · refine .inr ⟨⟨a, b', rfl, fun hm => hb (by simp [hm]), ?_⟩, fun he => hb (by simp [he])⟩
      exact hc.imp id (fun h => ⟨fun hm => h (by simp [hm]), fun he => h (by simp [he])⟩)
  · rintro (rfl | ⟨⟨a, b, rfl, hb, hc⟩, hne⟩)
    · exact ⟨es, [], by simp, by simp, .inr (by simp)⟩
    · refine ⟨a, b ++ [e], by simp, by simp [hb]; exact fun h => hne h.symm, ?_⟩
      exact hc.imp id (fun h => by simp [h.1]; exact fun he => h.2 he.symm)

theorem run_snoc {σ : Type} (step : σ → Ev → Outcome σ) (s : σ) (es : List Ev) (e : Ev) :
    run step s (es ++ [e]) = (run step s es >>= fun t => step t e) := by
  induction es generalizing s with
  | nil =>
    simp only [List.nil_append, run, Outcome.bind_ok]
    cases step s e <;> rfl
  | cons x xs ih =>
    simp only [List.cons_append, run]
    cases step s x with
    | ok t => simp only [Outcome.bind_ok, ih]
    | ub w => rfl
    | throws w => rfl

/-- What the state of a card says about its history. -/
structure CardInv (es : List Ev) (s : Card) : Prop where
  busy : s.busy = true ↔ Running es
  configured : s.configured = true ↔ Configured es
  source : s.source = true ↔ .conf ∈ es

theorem card_step {es : List Ev} {s : Card} (h : CardInv es s) (e : Ev) :
    (¬ CardFits es e → ∃ w, cardStep s e = .ub w) ∧
    (CardFits es e → ∃ s', cardStep s e = .ok s' ∧ CardInv (es ++ [e]) s') := by
  obtain ⟨h1, h2, h3⟩ := h
  have h4 : s.configured = true → s.source = true := by
    rw [h2, h3]
    rintro ⟨a, b, rfl, _⟩
    simp
  obtain ⟨c, so, b⟩ := s
  simp only at h1 h2 h3 h4
  cases e with
  | conf =>
    cases c with
    | true =>
      refine ⟨fun hf => absurd (fun _ => h2.mp rfl) hf, fun _ => ⟨_, rfl, ?_⟩⟩
      constructor <;> simp_all [running_snoc, configured_snoc]
    | false =>
      cases b with
      | true => exact ⟨fun _ => ⟨_, rfl⟩, fun hf => absurd (h2.mpr (hf (h1.mp rfl))) (by simp)⟩
      | false =>
        refine ⟨fun hf => absurd (fun hr => absurd (h1.mpr hr) (by simp)) hf, fun _ => ⟨_, rfl, ?_⟩⟩
        constructor <;> simp_all [running_snoc, configured_snoc]
  | scrap =>
    refine ⟨fun h => absurd trivial h, fun _ => ⟨_, rfl, ?_⟩⟩
    constructor <;> simp_all [running_snoc, configured_snoc]
  | start =>
    cases b with
    | true => exact ⟨fun _ => ⟨_, rfl⟩, fun hf => absurd (h1.mp rfl) hf.1⟩
    | false =>
      cases so with
      | false => exact ⟨fun _ => ⟨_, rfl⟩, fun hf => absurd (h3.mpr hf.2) (by simp)⟩
      | true =>
        refine ⟨fun hf => absurd ⟨fun hr => absurd (h1.mpr hr) (by simp), h3.mp rfl⟩ hf, fun _ => ⟨_, rfl, ?_⟩⟩
        constructor <;> simp_all [running_snoc, configured_snoc]
  | stop =>
    refine ⟨fun h => absurd trivial h, fun _ => ⟨_, rfl, ?_⟩⟩
    constructor <;> simp_all [running_snoc, configured_snoc]
  | packet =>
    refine ⟨fun h => absurd trivial h, fun _ => ⟨_, rfl, ?_⟩⟩
    constructor <;> simp_all [running_snoc, configured_snoc]

theorem card_run : (es : List Ev) →
    (¬ All CardFits es.reverse → ∃ w, run cardStep .init es.reverse = .ub w) ∧
    (All CardFits es.reverse → ∃ s, run cardStep .init es.reverse = .ok s ∧ CardInv es.reverse s)
  | [] => by
    refine ⟨fun h => absurd (all_nil _) h, fun _ => ⟨_, rfl, ?_⟩⟩
    constructor <;> simp [Card.init, Running, Configured]
  | e :: es => by
    obtain ⟨ih1, ih2⟩ := card_run es
    rw [List.reverse_cons, all_snoc, run_snoc]
    by_cases hh : All CardFits es.reverse
    · obtain ⟨s, hs, hi⟩ := ih2 hh
      obtain ⟨g1, g2⟩ := card_step hi e
      rw [hs, Outcome.bind_ok]
      exact ⟨fun hn => g1 (fun hm => hn ⟨hh, hm⟩), fun hm => g2 hm.2⟩
    · obtain ⟨w, hw⟩ := ih1 hh
      rw [hw]
      exact ⟨fun _ => ⟨w, rfl⟩, fun h => absurd h.1 hh⟩

/-- C117 (card). An emulator card survives a sequence of commands if and only if every command fits; then a run
is going on exactly if the commands say so, and each run has a file to replay. -/
theorem C117_card_survives_iff (es : List Ev) :
    (∃ s, run cardStep .init es = .ok s) ↔ All CardFits es := by
  have h := card_run es.reverse
  simp only [List.reverse_reverse] at h
  constructor
  · rintro ⟨s, hs⟩
    apply Classical.byContradiction
    intro hn
    obtain ⟨w, hw⟩ := h.1 hn
    rw [hw] at hs
    cases hs
  · intro hh
    obtain ⟨s, hs, -⟩ := h.2 hh
    exact ⟨s, hs⟩

theorem C117_card_state (es : List Ev) (s : Card) (h : run cardStep .init es = .ok s) :
    (s.busy = true ↔ Running es) ∧ (s.configured = true ↔ Configured es) ∧ (Running es → s.source = true) := by
  have hh := (C117_card_survives_iff es).mp ⟨s, h⟩
  have h2 := card_run es.reverse
  simp only [List.reverse_reverse] at h2
  obtain ⟨t, ht, hi⟩ := h2.2 hh
  rw [h] at ht
  injection ht with ht
  subst ht
  refine ⟨hi.busy, hi.configured, ?_⟩
  rintro ⟨a, b, rfl, -⟩
  rw [hi.source]
  have := (hh a .start b rfl).2
  exact List.mem_append_left _ this

/-- Non-vacuity: two runs; the configuration is replaced between them, and is scrapped in the second. -/
example : All CardFits [.conf, .start, .conf, .stop, .stop, .scrap, .conf, .start, .scrap, .stop] := by
  rw [← C117_card_survives_iff]
  exact ⟨_, rfl⟩

/-- C117 is false: a second `start` in a run is not refused; it frees the rate limiter that the producing thread
is using. -/
theorem C117_card_start_counterexample : run cardStep .init [.conf, .start, .start] = .ub .danglingBlock := rfl

/-- C117 is false: `scrap` and `conf` in a run are not refused; the file buffer is freed while it is replayed. -/
theorem C117_card_conf_counterexample : run cardStep .init [.conf, .start, .scrap, .conf] = .ub .danglingBlock := rfl

/-- C117 is false: a `start` before the first `conf` is not refused, the file buffer is a null pointer. -/
theorem C117_card_unconfigured_counterexample : run cardStep .init [.start] = .ub .nullDeref := rfl

/-- C117 is false: a card that was scrapped starts all the same, with the file of the scrapped configuration. -/
theorem C117_card_scrapped_counterexample :
    run cardStep .init [.conf, .scrap, .start] = .ok ⟨false, true, true⟩ := rfl

/-- What the state of a recorder says about its history. -/
structure RecInv (es : List Ev) (s : Recorder) : Prop where
  busy : s.busy = true ↔ Recording es
  isOpen : s.isOpen = true ↔ .conf ∈ es

theorem rec_step {es : List Ev} {s : Recorder} (hall : All RecFits es) (h : RecInv es s) (e : Ev) :
    (¬ RecFits es e → ∃ w, recStep s e = .ub w) ∧
    (RecFits es e → ∃ s', recStep s e = .ok s' ∧ RecInv (es ++ [e]) s') := by
  obtain ⟨h1, h2⟩ := h
  obtain ⟨o, b, t, w, l⟩ := s
  simp only at h1 h2
  have hrec : ∀ e, e ≠ .start → e ≠ .stop → e ≠ .packet → (Recording (es ++ [e]) ↔ Recording es) := by
    intro e a1 a2 a3
    rw [recording_snoc]
    simp only [a1, false_or, ne_eq, a2, not_false_eq_true, and_true, a3]
    rfl
  have hstart : Recording (es ++ [.start]) := (recording_snoc _ _).mpr (.inl rfl)
  have hstop : ¬ Recording (es ++ [.stop]) := by rw [recording_snoc]; simp
  cases e with
  | conf =>
    cases b with
    | false =>
      refine ⟨fun hf => absurd (by simpa [RecFits] using h1) hf, fun _ => ⟨_, rfl, ?_⟩⟩
      constructor
      · rw [hrec _ (by simp) (by simp) (by simp)]; exact h1
      · simp
    | true =>
      refine ⟨fun _ => ⟨_, rfl⟩, fun hf => absurd (h1.mp rfl) hf⟩
  | scrap =>
    refine ⟨fun h => absurd trivial h, fun _ => ⟨_, rfl, ?_⟩⟩
    constructor
    · rw [hrec _ (by simp) (by simp) (by simp)]; exact h1
    · simpa using h2
  | start =>
    refine ⟨fun h => absurd trivial h, fun _ => ⟨_, rfl, ?_⟩⟩
    constructor
    · simp [hstart]
    · simpa using h2
  | stop =>
    refine ⟨fun h => absurd trivial h, fun _ => ⟨_, rfl, ?_⟩⟩
    constructor
    · simp [hstop]
    · simpa using h2
  | packet =>
    refine ⟨fun h => absurd trivial h, fun _ => ?_⟩
    have hfirst : Recording es → .conf ∈ es → ∃ a b, es = a ++ .start :: b ∧ .stop ∉ b ∧ .conf ∈ a := by
      rintro ⟨a, b, rfl, hb, hc⟩ hm
      rcases hc with hc | hc
      · exact ⟨a, b, rfl, hb, hc⟩
      · rcases List.mem_append.mp hm with hm | hm
        · exact ⟨a, b, rfl, hb, hm⟩
        · rcases List.mem_cons.mp hm with hm | hm
          · cases hm
          · obtain ⟨b1, b2, rfl⟩ := List.append_of_mem hm
            have := hall (a ++ .start :: b1) .conf b2 (by simp)
            refine absurd ⟨a, b1, rfl, fun h => hb (by simp [h]), .inr (fun h => hc (by simp [h]))⟩ this
    have hp : Recording (es ++ [.packet]) ↔ Recording es ∧ .conf ∈ es := by
      rw [recording_snoc]
      constructor
      · rintro (h | ⟨⟨a, b, rfl, hb, hc⟩, -⟩)
        · cases h
        · rcases hc with hc | hc
          · exact ⟨⟨a, b, rfl, hb, .inl hc⟩, by simp [hc]⟩
          · exact absurd rfl hc.2
      · rintro ⟨hr, hm⟩
        obtain ⟨a, b, he, hb, hc⟩ := hfirst hr hm
        exact .inr ⟨⟨a, b, he, hb, .inl hc⟩, by simp⟩
    cases b with
    | false =>
      refine ⟨_, rfl, ?_⟩
      constructor
      · rw [hp, ← h1]; simp
      · simpa using h2
    | true =>
      cases o with
      | true =>
        refine ⟨_, rfl, ?_⟩
        constructor
        · rw [hp, ← h1, ← h2]; simp
        · simpa using h2
      | false =>
        refine ⟨_, rfl, ?_⟩
        constructor
        · rw [hp, ← h1, ← h2]; simp
        · simpa using h2

theorem rec_run : (es : List Ev) →
    (¬ All RecFits es.reverse → ∃ w, run recStep .init es.reverse = .ub w) ∧
    (All RecFits es.reverse → ∃ s, run recStep .init es.reverse = .ok s ∧ RecInv es.reverse s)
  | [] => by
    refine ⟨fun h => absurd (all_nil _) h, fun _ => ⟨_, rfl, ?_⟩⟩
    constructor <;> simp [Recorder.init, Recording]
  | e :: es => by
    obtain ⟨ih1, ih2⟩ := rec_run es
    rw [List.reverse_cons, all_snoc, run_snoc]
    by_cases hh : All RecFits es.reverse
    · obtain ⟨s, hs, hi⟩ := ih2 hh
      obtain ⟨g1, g2⟩ := rec_step hh hi e
      rw [hs, Outcome.bind_ok]
      exact ⟨fun hn => g1 (fun hm => hn ⟨hh, hm⟩), fun hm => g2 hm.2⟩
    · obtain ⟨w, hw⟩ := ih1 hh
      rw [hw]
      exact ⟨fun _ => ⟨w, rfl⟩, fun h => absurd h.1 hh⟩

/-- C117 (recorder). A recorder survives a sequence of commands and packets if and only if no `conf` comes while
its thread is at work. -/
theorem C117_recorder_survives_iff (es : List Ev) :
    (∃ s, run recStep .init es = .ok s) ↔ All RecFits es := by
  have h := rec_run es.reverse
  simp only [List.reverse_reverse] at h
  constructor
  · rintro ⟨s, hs⟩
    apply Classical.byContradiction
    intro hn
    obtain ⟨w, hw⟩ := h.1 hn
    rw [hw] at hs
    cases hs
  · intro hh
    obtain ⟨s, hs, -⟩ := h.2 hh
    exact ⟨s, hs⟩

/-- Specification: the commands fit: no `conf` in a run, no `start` in a run or before the first `conf`. -/
def RecOrder (es : List Ev) : Ev → Prop
  | .conf => ¬ Running es
  | .start => ¬ Running es ∧ .conf ∈ es
  | _ => True

/-- Specification: whether a run is going on, and how many packets came in the present or last run and in all
runs. -/
def tally (s : Bool × Nat × Nat) : Ev → Bool × Nat × Nat
  | .start => (true, 0, s.2.2)
  | .stop => (false, s.2)
  | .packet => if s.1 then (true, s.2.1 + 1, s.2.2 + 1) else s
  | _ => s

theorem rec_order : (es : List Ev) → All RecOrder es.reverse →
    ∃ s, run recStep .init es.reverse = .ok s ∧
      (s.busy, s.total, s.written) = es.reverse.foldl tally (false, 0, 0) ∧ s.lost = 0 ∧
      (s.busy = true ↔ Running es.reverse) ∧ (s.isOpen = true ↔ .conf ∈ es.reverse) ∧
      (s.busy = true → s.isOpen = true)
  | [], _ => ⟨_, rfl, rfl, rfl, by simp [Recorder.init, Running], by simp [Recorder.init], by simp [Recorder.init]⟩
  | e :: es, h => by
    rw [List.reverse_cons] at h ⊢
    rw [all_snoc] at h
    obtain ⟨s, h1, h2, h3, h4, h5, h6⟩ := rec_order es h.1
    rw [run_snoc, h1, Outcome.bind_ok, List.foldl_append, ← h2]
    obtain ⟨o, b, t, w, l⟩ := s
    simp only at h3 h4 h5 h6
    have hf := h.2
    cases e with
    | conf =>
      cases b with
      | true => exact absurd (h4.mp rfl) hf
      | false =>
        refine ⟨_, rfl, rfl, h3, ?_, by simp, by simp⟩
        rw [running_snoc, ← h4]; simp
    | scrap => exact ⟨_, rfl, rfl, h3, (by rw [running_snoc, ← h4]; simp), (by simpa using h5), h6⟩
    | start =>
      refine ⟨_, rfl, rfl, h3, ?_, by simpa using h5, fun _ => h5.mpr hf.2⟩
      rw [running_snoc]; simp
    | stop => exact ⟨_, rfl, rfl, h3, (by rw [running_snoc]; simp), (by simpa using h5), by simp⟩
    | packet =>
      cases b with
      | false => exact ⟨_, rfl, rfl, h3, (by rw [running_snoc, ← h4]; simp), (by simpa using h5), h6⟩
      | true =>
        have ho := h6 rfl
        subst ho
        exact ⟨_, rfl, rfl, h3, (by rw [running_snoc, ← h4]; simp), (by simpa using h5), h6⟩

/-- C117 (recorder, commands that fit). If the commands fit, all are obeyed, every packet of a run is written, and
the number reported is that of the packets of the present or last run. -/
theorem C117_recorder_in_order_partial (es : List Ev) (h : All RecOrder es) :
    ∃ s, run recStep .init es = .ok s ∧ (s.busy, s.total, s.written) = es.foldl tally (false, 0, 0) ∧ s.lost = 0 := by
  have := rec_order es.reverse
  simp only [List.reverse_reverse] at this
  obtain ⟨s, h1, h2, h3, -⟩ := this h
  exact ⟨s, h1, h2, h3⟩

/-- Non-vacuity. -/
theorem rec_demo : All RecOrder [.conf, .start, .packet, .packet, .stop, .packet, .conf, .start, .packet] := by
  have : ([.conf, .start, .packet, .packet, .stop, .packet, .conf, .start, .packet] : List Ev) =
    [] ++ [.conf] ++ [.start] ++ [.packet] ++ [.packet] ++ [.stop] ++ [.packet] ++ [.conf] ++ [.start] ++ [.packet] := rfl
  have hn : ¬ Running [] := by rintro ⟨a, b, h, -⟩; simp at h
  rw [this]
  simp only [all_snoc, RecOrder, running_snoc]
  simp [all_nil, hn]

example : run recStep .init [.conf, .start, .packet, .packet, .stop, .packet, .conf, .start, .packet] =
    .ok ⟨true, true, 1, 3, 0⟩ := rfl

example : All RecFits [.start, .packet, .conf, .start, .start, .packet, .stop, .stop] := by
  rw [← C117_recorder_survives_iff]
  exact ⟨_, rfl⟩

/-- C117 is false: a `conf` in a run is not refused; it closes and replaces the file under the writing thread. -/
theorem C117_recorder_conf_counterexample : run recStep .init [.conf, .start, .conf] = .ub .danglingBlock := rfl

/-- C117 is false: a second `start` in a run is not refused; the run goes on but its packets are forgotten in the
number reported. -/
theorem C117_recorder_start_counterexample :
    run recStep .init [.conf, .start, .packet, .packet, .start, .packet, .stop] = .ok ⟨true, false, 1, 3, 0⟩ := rfl

/-- C117 is false: a `start` before `conf` is not refused; the first packet is taken and lost, it is counted as
processed, and the thread ends though the run goes on. -/
theorem C117_recorder_unconfigured_counterexample :
    run recStep .init [.start, .packet, .packet] = .ok ⟨false, false, 1, 0, 1⟩ := rfl

end Verif.WorkCmd
