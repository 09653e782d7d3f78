import Verif.CmdModel
/- Property C116: commands out of order. -/
namespace Verif.Cmd

/-- Specification: after these commands a run is going on: a `start` not followed by a `stop`. -/
def Running (es : List Ev) : Prop := ∃ a b, es = a ++ .start :: b ∧ .stop ∉ b

/-- Specification: raw recording has been configured. -/
def Raw (es : List Ev) : Prop := ∃ c, .conf c ∈ es ∧ c.raw = true

/-- Specification: after these commands a recording is going on. -/
def Recording (es : List Ev) : Prop :=
  ∃ a b, es = a ++ .record :: b ∧ Raw a ∧ .stop ∉ b ∧ .recorded ∉ b

/-- Specification: the link has been configured. -/
def Configured (es : List Ev) : Prop := ∃ c, .conf c ∈ es

/-- Specification: the command fits what the link is doing after the commands `es`. -/
def Fits (es : List Ev) : Ev → Prop
  | .conf _ => ¬ Running es ∧ ¬ Recording es
  | .start => ¬ Running es ∧ Configured es
  | .stop => Running es
  | _ => True

/-- Specification: every command fits. -/
def InOrder (es : List Ev) : Prop := ∀ a e b, es = a ++ e :: b → Fits a e

/-- Specification: the least that has to hold for the process to survive: no `start` in a run, no `conf` in a
run or a recording. -/
def Harmless (es : List Ev) : Prop :=
  ∀ a e b, es = a ++ e :: b →
    (e = .start → ¬ Running a) ∧ (∀ c, e = .conf c → ¬ Running a ∧ ¬ Recording a)

theorem running_snoc (es : List Ev) (e : Ev) :
    Running (es ++ [e]) ↔ e = .start ∨ (Running es ∧ e ≠ .stop) := by
  constructor
  · rintro ⟨a, b, h, hb⟩
    rcases List.eq_nil_or_concat b with rfl | ⟨b', x, rfl⟩
    · have := List.append_inj' h rfl
      left; simpa using this.2
    · rw [List.concat_eq_append, ← List.cons_append, ← List.append_assoc] at h
      have h' := List.append_inj' h rfl
      have hx : e = x := by simpa using h'.2
      right
      refine ⟨⟨a, b', h'.1, fun hm => hb (by simp [hm])⟩, ?_⟩
      rintro rfl
      exact hb (by simp [hx])
  · rintro (rfl | ⟨⟨a, b, rfl, hb⟩, hne⟩)
    · exact ⟨es, [], by simp, by simp⟩
    · exact ⟨a, b ++ [e], by simp, by simp [hb]; exact fun h => hne h.symm⟩

theorem raw_snoc (es : List Ev) (e : Ev) :
    Raw (es ++ [e]) ↔ Raw es ∨ ∃ c, e = .conf c ∧ c.raw = true := by
  constructor
  · rintro ⟨c, h, hr⟩
    rcases List.mem_append.mp h with h | h
    · exact .inl ⟨c, h, hr⟩
    · right
      exact ⟨c, (by simpa using h : Ev.conf c = e).symm, hr⟩
  · rintro (⟨c, h, hr⟩ | ⟨c, rfl, hr⟩)
    · exact ⟨c, by simp [h], hr⟩
    · exact ⟨c, by simp, hr⟩

theorem configured_snoc (es : List Ev) (e : Ev) :
    Configured (es ++ [e]) ↔ Configured es ∨ ∃ c, e = .conf c := by
  constructor
  · rintro ⟨c, h⟩
    rcases List.mem_append.mp h with h | h
    · exact .inl ⟨c, h⟩
    · exact .inr ⟨c, (by simpa using h : Ev.conf c = e).symm⟩
  · rintro (⟨c, h⟩ | ⟨c, rfl⟩)
    · exact ⟨c, by simp [h]⟩
    · exact ⟨c, by simp⟩

theorem recording_snoc (es : List Ev) (e : Ev) :
    Recording (es ++ [e]) ↔ (e = .record ∧ Raw es) ∨ (Recording es ∧ e ≠ .stop ∧ e ≠ .recorded) := by
  constructor
  · rintro ⟨a, b, h, hr, hb, hc⟩
    rcases List.eq_nil_or_concat b with rfl | ⟨b', x, rfl⟩
    · have := List.append_inj' h rfl
      left
      exact ⟨by simpa using this.2, this.1 ▸ hr⟩
    · rw [List.concat_eq_append, ← List.cons_append, ← List.append_assoc] at h
      have h' := List.append_inj' h rfl
      have hx : e = x := by simpa using h'.2
      right
      refine ⟨⟨a, b', h'.1, hr, fun hm => hb (by simp [hm]), fun hm => hc (by simp [hm])⟩, ?_, ?_⟩
      · rintro rfl
        exact hb (by simp [hx])
      · rintro rfl
        exact hc (by simp [hx])
  · rintro (⟨rfl, hr⟩ | ⟨⟨a, b, rfl, hr, hb, hc⟩, h1, h2⟩)
    · exact ⟨es, [], by simp, hr, by simp, by simp⟩
    · exact ⟨a, b ++ [e], by simp, hr, by simp [hb]; exact fun h => h1 h.symm,
        by simp [hc]; exact fun h => h2 h.symm⟩

/-- Specification: whether a run is going on, and how many requests arrived in runs so far. -/
def count (s : Bool × Nat) : Ev → Bool × Nat
  | .start => (true, s.2)
  | .stop => (false, s.2)
  | .request => (s.1, if s.1 then s.2 + 1 else s.2)
  | _ => s

/-- Specification: the number of requests that arrived in runs. -/
def requests (es : List Ev) : Nat := (es.foldl count (false, 0)).2

/-- Specification: the last configuration. -/
def lastConf (es : List Ev) : Option Conf :=
  (es.filterMap (fun e => match e with | .conf c => some c | _ => none)).getLast?

theorem count_running : (es : List Ev) → ((es.reverse.foldl count (false, 0)).1 = true ↔ Running es.reverse)
  | [] => by simp [Running]
  | e :: es => by
    have ih := count_running es
    rw [List.reverse_cons, List.foldl_append, running_snoc, ← ih]
    generalize es.reverse.foldl count (false, 0) = s
    cases e <;> simp [count]

theorem count_running' (es : List Ev) : (es.foldl count (false, 0)).1 = true ↔ Running es := by
  have := count_running es.reverse
  simpa using this

theorem lastConf_snoc (es : List Ev) (e : Ev) :
    lastConf (es ++ [e]) = match e with | .conf c => some c | _ => lastConf es := by
  unfold lastConf
  cases e <;> simp [List.filterMap_append]

theorem requests_snoc (es : List Ev) (e : Ev) :
    requests (es ++ [e]) = requests es + (if e = .request ∧ (es.foldl count (false, 0)).1 = true then 1 else 0) := by
  unfold requests
  rw [List.foldl_append]
  cases e <;> simp [count]
  split <;> simp_all

theorem lastConf_configured (es : List Ev) : Configured es ↔ (lastConf es).isSome = true := by
  unfold lastConf Configured
  rw [List.getLast?_isSome]
  simp only [ne_eq, List.filterMap_eq_nil_iff]
  constructor
  · rintro ⟨c, h⟩ hn
    simpa using hn _ h
  · intro h
    simp only [Classical.not_forall] at h
    obtain ⟨x, hx, h⟩ := h
    cases x <;> simp_all
    exact ⟨_, hx⟩

/-- What the state says about the history. -/
structure Inv (es : List Ev) (l : Link) : Prop where
  busy : l.busy = true ↔ Running es
  waiter : l.waiter = l.busy
  file : l.file = true ↔ Raw es
  recording : l.recording = true ↔ Recording es
  pool : l.busy = true → l.pool.isSome = true
  account : l.handled + l.queued + l.lost = requests es
  idle : ¬ Configured es → l.handled = 0 ∧ l.threads = 0 ∧ (l.pool = none ∨ l.pool = some 0)

theorem inv_init : Inv [] .init := by
  refine ⟨?_, rfl, ?_, ?_, by simp [Link.init], rfl, by simp [Link.init]⟩ <;>
    simp [Link.init, Running, Raw, Recording]

theorem run_snoc (l : Link) (es : List Ev) (e : Ev) :
    run l (es ++ [e]) = match (run l es).2 with
      | some l' => ((run l es).1 ++ [step l' e], (step l' e).link?)
      | none => run l es := by
  induction es generalizing l with
  | nil => cases h : (step l e).link? <;> simp [run, h]
  | cons x xs ih =>
    cases h : (step l x).link? with
    | none => simp [run, h]
    | some l' =>
      simp only [List.cons_append, run, h, ih]
      cases h2 : (run l' xs).2 <;> simp [h2]

/-- Specification: the last of the commands is one that the process survives. -/
def Mild (a : List Ev) (e : Ev) : Prop :=
  (e = .start → ¬ Running a) ∧ (∀ c, e = .conf c → ¬ Running a ∧ ¬ Recording a)

theorem harmless_snoc (es : List Ev) (e : Ev) : Harmless (es ++ [e]) ↔ Harmless es ∧ Mild es e := by
  constructor
  · intro h
    exact ⟨fun a x b he => h a x (b ++ [e]) (by simp [he]), h es e [] rfl⟩
  · rintro ⟨h1, h2⟩ a x b he
    rcases List.eq_nil_or_concat b with rfl | ⟨b', y, rfl⟩
    · have h' := List.append_inj' he rfl
      have hx : e = x := by simpa using h'.2
      rw [← hx, ← h'.1]; exact h2
    · rw [List.concat_eq_append, ← List.cons_append, ← List.append_assoc] at he
      have h' := List.append_inj' he rfl
      exact h1 a x b' h'.1

/-- Whether a command is survived, and what becomes of the state. -/
theorem step_inv {es : List Ev} {l : Link} (h : Inv es l) (e : Ev) :
    (¬ Mild es e → (step l e).link? = none) ∧
    (Mild es e → ∃ l', (step l e).link? = some l' ∧ Inv (es ++ [e]) l' ∧
      (step l e = .returned l' ∨ e = .stop ∧ ¬ Running es ∧ step l e = .threw l' ∧
        l' = { l with recording := false })) := by
  have hrun := h.busy
  have hrec := h.recording
  have hw := h.waiter
  have hc := count_running' es
  obtain ⟨flag, threads, slots, pool, queued, waiter, file, recording, busy, handled, lost⟩ := l
  have hf := h.file
  have hp := h.pool
  have ha := h.account
  have hi := h.idle
  simp only at hrun hrec hw hf hp ha hi
  cases e with
  | conf c =>
    constructor
    · intro hm
      have : busy = true ∨ recording = true := by
        rw [hrun, hrec]
        apply Classical.byContradiction
        intro hn
        apply hm
        refine ⟨(by intro he; cases he), fun _ _ => ⟨fun h1 => hn (.inl h1), fun h1 => hn (.inr h1)⟩⟩
      rcases this with rfl | rfl <;> simp [step, conf, Res.link?]
    · intro hm
      obtain ⟨h1, h2⟩ := hm.2 c rfl
      have hb : busy = false := by cases busy <;> simp_all
      have hr : recording = false := by cases recording <;> simp_all
      subst hb hr
      refine ⟨_, by simp only [step, conf, Res.link?, Bool.or_self, Bool.false_eq_true, ↓reduceIte], ?_, .inl rfl⟩
      constructor <;> simp_all [running_snoc, raw_snoc, recording_snoc, requests_snoc, configured_snoc]
  | scrap =>
    refine ⟨fun hm => absurd ⟨(by intro he; cases he), (by intro c he; cases he)⟩ hm, fun _ => ⟨_, rfl, ?_, .inl rfl⟩⟩
    constructor <;> simp_all [running_snoc, raw_snoc, recording_snoc, requests_snoc, configured_snoc]
  | start =>
    constructor
    · intro hm
      have : busy = true := by
        rw [hrun]
        apply Classical.byContradiction
        intro hn
        exact hm ⟨fun _ => hn, (by intro c he; cases he)⟩
      subst this
      simp [step, start, newPool, Res.link?, hw]
    · intro hm
      have h1 := hm.1 rfl
      have hb : busy = false := by cases busy <;> simp_all
      subst hb
      subst hw
      refine ⟨_, by simp only [step, start, newPool, Res.link?, Bool.false_eq_true, ↓reduceIte], ?_, .inl rfl⟩
      constructor <;> simp_all [newPool, running_snoc, raw_snoc, recording_snoc, requests_snoc, configured_snoc]
      omega
  | stop =>
    refine ⟨fun hm => absurd ⟨(by intro he; cases he), (by intro c he; cases he)⟩ hm, fun _ => ?_⟩
    subst hw
    cases waiter with
    | false =>
      refine ⟨_, rfl, ?_, .inr ⟨rfl, by simpa using hrun, rfl, rfl⟩⟩
      constructor <;> simp_all [running_snoc, raw_snoc, recording_snoc, requests_snoc, configured_snoc]
    | true =>
      match pool, hp, hi with
      | none, hp, _ => simp at hp
      | some 0, hp, hi =>
        refine ⟨_, rfl, ?_, .inl rfl⟩
        constructor <;> simp_all [running_snoc, raw_snoc, recording_snoc, requests_snoc, configured_snoc]
      | some (n + 1), hp, hi =>
        refine ⟨_, rfl, ?_, .inl rfl⟩
        constructor <;> simp_all [running_snoc, raw_snoc, recording_snoc, requests_snoc, configured_snoc]
  | record =>
    refine ⟨fun hm => absurd ⟨(by intro he; cases he), (by intro c he; cases he)⟩ hm, fun _ => ?_⟩
    cases recording <;> cases file <;>
      refine ⟨_, rfl, ?_, .inl rfl⟩ <;>
      constructor <;> simp_all [running_snoc, raw_snoc, recording_snoc, requests_snoc, configured_snoc]
  | request =>
    refine ⟨fun hm => absurd ⟨(by intro he; cases he), (by intro c he; cases he)⟩ hm, fun _ => ?_⟩
    cases busy with
    | false =>
      refine ⟨_, rfl, ?_, .inl rfl⟩
      constructor <;> simp_all [running_snoc, raw_snoc, recording_snoc, requests_snoc, configured_snoc]
    | true =>
      match pool, hp, hi with
      | none, hp, _ => simp at hp
      | some n, hp, hi =>
        refine ⟨_, rfl, ?_, .inl rfl⟩
        constructor <;> simp_all [running_snoc, raw_snoc, recording_snoc, requests_snoc, configured_snoc]
        omega
  | handle =>
    refine ⟨fun hm => absurd ⟨(by intro he; cases he), (by intro c he; cases he)⟩ hm, fun _ => ?_⟩
    match pool, hp, hi with
    | none, hp, hi =>
      refine ⟨_, rfl, ?_, .inl rfl⟩
      constructor <;> simp_all [running_snoc, raw_snoc, recording_snoc, requests_snoc, configured_snoc]
    | some 0, hp, hi =>
      refine ⟨_, rfl, ?_, .inl rfl⟩
      constructor <;> simp_all [running_snoc, raw_snoc, recording_snoc, requests_snoc, configured_snoc]
    | some (n + 1), hp, hi =>
      cases queued with
      | zero =>
        refine ⟨_, rfl, ?_, .inl rfl⟩
        constructor <;> simp_all [running_snoc, raw_snoc, recording_snoc, requests_snoc, configured_snoc]
      | succ q =>
        refine ⟨_, rfl, ?_, .inl rfl⟩
        constructor <;> simp_all [running_snoc, raw_snoc, recording_snoc, requests_snoc, configured_snoc]
        omega
  | recorded =>
    refine ⟨fun hm => absurd ⟨(by intro he; cases he), (by intro c he; cases he)⟩ hm, fun _ => ⟨_, rfl, ?_, .inl rfl⟩⟩
    constructor <;> simp_all [running_snoc, raw_snoc, recording_snoc, requests_snoc, configured_snoc]

/-- The state after commands that the process survives. -/
theorem run_inv : (es : List Ev) →
    (¬ Harmless es.reverse → (run .init es.reverse).2 = none) ∧
    (Harmless es.reverse → ∃ l, (run .init es.reverse).2 = some l ∧ Inv es.reverse l)
  | [] => ⟨fun h => absurd (fun a e b he => by simp at he) h, fun _ => ⟨_, rfl, inv_init⟩⟩
  | e :: es => by
    obtain ⟨ih1, ih2⟩ := run_inv es
    rw [List.reverse_cons, harmless_snoc, run_snoc]
    by_cases hh : Harmless es.reverse
    · obtain ⟨l, hl, hi⟩ := ih2 hh
      obtain ⟨h1, h2⟩ := step_inv hi e
      rw [hl]
      constructor
      · intro hn
        exact h1 (fun hm => hn ⟨hh, hm⟩)
      · rintro ⟨_, hm⟩
        obtain ⟨l', he, hi', _⟩ := h2 hm
        exact ⟨l', he, hi'⟩
    · rw [ih1 hh]
      exact ⟨fun _ => ih1 hh, fun h => absurd h.1 hh⟩

theorem run_inv' {es : List Ev} (h : Harmless es) : ∃ l, (run .init es).2 = some l ∧ Inv es l := by
  have := (run_inv es.reverse).2
  simp only [List.reverse_reverse] at this
  exact this h

/-- C116 (exact condition for survival). The process survives a sequence of commands if and only if no `start`
comes in a run and no `conf` in a run or a recording. -/
theorem C116_survives_iff (es : List Ev) : (run .init es).2.isSome = true ↔ Harmless es := by
  have := run_inv es.reverse
  simp only [List.reverse_reverse] at this
  constructor
  · intro h
    apply Classical.byContradiction
    intro hn
    rw [this.1 hn] at h
    cases h
  · intro h
    obtain ⟨l, hl, _⟩ := this.2 h
    rw [hl]; rfl

/-- C116 (what is refused). Among commands that the process survives, the only one that fails is a `stop`
outside a run, and then it changes nothing but that a recording has been waited for. -/
theorem C116_refused_iff (es : List Ev) (e : Ev) (h : Harmless (es ++ [e])) :
    ∃ l, (run .init es).2 = some l ∧
      ((∃ l', step l e = .threw l') ↔ (e = .stop ∧ ¬ Running es)) ∧
      (∀ l', step l e = .threw l' → l' = { l with recording := false }) := by
  rw [harmless_snoc] at h
  obtain ⟨l, hl, hi⟩ := run_inv' h.1
  refine ⟨l, hl, ?_⟩
  obtain ⟨l', _, _, h3⟩ := (step_inv hi e).2 h.2
  rcases h3 with h3 | ⟨rfl, h4, h5, h6⟩
  · rw [h3]
    refine ⟨⟨(by rintro ⟨_, hh⟩; cases hh), ?_⟩, (by intro _ hh; cases hh)⟩
    rintro ⟨rfl, hn⟩
    have hb : l.waiter = false := by
      rw [hi.waiter]
      cases hx : l.busy
      · rfl
      · exact absurd (hi.busy.mp hx) hn
    simp [step, stop, hb] at h3
  · rw [h5]
    exact ⟨⟨fun _ => ⟨rfl, h4⟩, fun _ => ⟨_, rfl⟩⟩, by intro l2 hh; cases hh; exact h6⟩

/-- C116 (requests). Every request that arrived in a run has been looked up, is queued, or has been dropped with
a pool of threads; a link that was never configured looks up none. -/
theorem C116_requests (es : List Ev) (h : Harmless es) :
    ∃ l, (run .init es).2 = some l ∧ l.handled + l.queued + l.lost = requests es ∧
      (¬ Configured es → l.handled = 0) := by
  obtain ⟨l, hl, hi⟩ := run_inv' h
  exact ⟨l, hl, hi.account, fun hc => (hi.idle hc).1⟩

/-- What holds in addition while all commands fit. -/
structure Good (es : List Ev) (l : Link) : Prop where
  lost : l.lost = 0
  idle : l.busy = false → l.queued = 0
  pool : l.busy = true → l.pool = some l.threads
  conf : ∀ c, lastConf es = some c → l.threads = c.threads ∧ l.slots = c.slots
  some : l.busy = true → ∃ c, lastConf es = some c

theorem fits_mild {es : List Ev} {e : Ev} (h : Fits es e) : Mild es e := by
  constructor
  · rintro rfl; exact h.1
  · rintro c rfl; exact h

theorem inOrder_snoc (es : List Ev) (e : Ev) : InOrder (es ++ [e]) ↔ InOrder es ∧ Fits es e := by
  constructor
  · intro h
    exact ⟨fun a x b he => h a x (b ++ [e]) (by simp [he]), h es e [] rfl⟩
  · rintro ⟨h1, h2⟩ a x b he
    rcases List.eq_nil_or_concat b with rfl | ⟨b', y, rfl⟩
    · have h' := List.append_inj' he rfl
      have hx : e = x := by simpa using h'.2
      rw [← hx, ← h'.1]; exact h2
    · rw [List.concat_eq_append, ← List.cons_append, ← List.append_assoc] at he
      have h' := List.append_inj' he rfl
      exact h1 a x b' h'.1

theorem inOrder_harmless {es : List Ev} (h : InOrder es) : Harmless es :=
  fun a e b he => fits_mild (h a e b he)

theorem good_step {es : List Ev} {l l' : Link} (hi : Inv es l) (h : Good es l) (e : Ev) (hf : Fits es e)
    (ht : ∀ c, lastConf es = some c → 1 ≤ c.threads) (hs : step l e = .returned l') : Good (es ++ [e]) l' := by
  have hrun := hi.busy
  have hw := hi.waiter
  obtain ⟨flag, threads, slots, pool, queued, waiter, file, recording, busy, handled, lost⟩ := l
  obtain ⟨g1, g2, g3, g4, g5⟩ := h
  simp only at hrun hw g1 g2 g3 g4 g5
  cases e with
  | conf c =>
    have hb : busy = false := by
      cases busy
      · rfl
      · exact absurd (hrun.mp rfl) hf.1
    subst hb
    cases recording <;> simp only [step, conf, Bool.or_false, Bool.or_true, Bool.false_eq_true, ↓reduceIte,
      reduceCtorEq, Res.returned.injEq] at hs
    subst hs
    exact ⟨g1, g2, (by intro h; cases h), (by intro c' h; rw [lastConf_snoc] at h; cases h; exact ⟨rfl, rfl⟩),
      (by intro h; cases h)⟩
  | scrap =>
    cases hs
    exact ⟨g1, g2, g3, (by rw [lastConf_snoc]; exact g4), (by rw [lastConf_snoc]; exact g5)⟩
  | start =>
    have hb : busy = false := by
      cases busy
      · rfl
      · exact absurd (hrun.mp rfl) hf.1
    subst hb
    subst hw
    simp only [step, start, newPool, Bool.false_eq_true, ↓reduceIte, Res.returned.injEq] at hs
    subst hs
    have hq := g2 rfl
    refine ⟨by simp only [g1, hq], fun _ => rfl, fun _ => rfl, (by rw [lastConf_snoc]; exact g4), ?_⟩
    intro _
    rw [lastConf_snoc]
    have := (lastConf_configured es).mp hf.2
    exact Option.isSome_iff_exists.mp this
  | stop =>
    have hb : busy = true := hrun.mpr hf
    subst hb
    subst hw
    obtain ⟨c, hc⟩ := g5 rfl
    obtain ⟨k, hk⟩ : ∃ k, threads = k + 1 := by
      have h1 := ht c hc
      rw [← (g4 c hc).1] at h1
      exact ⟨threads - 1, by omega⟩
    rw [hk] at g3
    rw [g3 rfl] at hs
    simp only [step, stop, ↓reduceIte, Res.returned.injEq] at hs
    subst hs
    exact ⟨g1, fun _ => rfl, (by intro h; cases h), (by rw [lastConf_snoc]; exact g4), (by intro h; cases h)⟩
  | record =>
    have hb : l'.lost = lost ∧ l'.queued = queued ∧ l'.busy = busy ∧ l'.pool = pool ∧ l'.threads = threads ∧
        l'.slots = slots := by
      cases recording <;> cases file <;> cases hs <;> exact ⟨rfl, rfl, rfl, rfl, rfl, rfl⟩
    obtain ⟨b1, b2, b3, b4, b5, b6⟩ := hb
    refine ⟨by rw [b1]; exact g1, by rw [b2, b3]; exact g2, by rw [b3, b4, b5]; exact g3,
      by rw [lastConf_snoc, b5, b6]; exact g4, by rw [lastConf_snoc, b3]; exact g5⟩
  | request =>
    cases busy with
    | false =>
      cases hs
      exact ⟨g1, g2, g3, (by rw [lastConf_snoc]; exact g4), (by rw [lastConf_snoc]; exact g5)⟩
    | true =>
      cases pool with
      | none => cases hs
      | some n =>
        cases hs
        exact ⟨g1, (by intro h; cases h), g3, (by rw [lastConf_snoc]; exact g4),
          (by rw [lastConf_snoc]; exact g5)⟩
  | handle =>
    have hb : l'.lost = lost ∧ l'.queued ≤ queued ∧ l'.busy = busy ∧ l'.pool = pool ∧ l'.threads = threads ∧
        l'.slots = slots := by
      match pool, hs with
      | none, hs => cases hs; exact ⟨rfl, Nat.le_refl _, rfl, rfl, rfl, rfl⟩
      | some 0, hs => cases hs; exact ⟨rfl, Nat.le_refl _, rfl, rfl, rfl, rfl⟩
      | some (n + 1), hs =>
        cases queued with
        | zero => cases hs; exact ⟨rfl, Nat.le_refl _, rfl, rfl, rfl, rfl⟩
        | succ q => cases hs; exact ⟨rfl, Nat.le_succ _, rfl, rfl, rfl, rfl⟩
    obtain ⟨b1, b2, b3, b4, b5, b6⟩ := hb
    refine ⟨by rw [b1]; exact g1, (by rw [b3]; intro h; have := g2 h; omega), by rw [b3, b4, b5]; exact g3,
      by rw [lastConf_snoc, b5, b6]; exact g4, by rw [lastConf_snoc, b3]; exact g5⟩
  | recorded =>
    cases hs
    exact ⟨g1, g2, g3, (by rw [lastConf_snoc]; exact g4), (by rw [lastConf_snoc]; exact g5)⟩

theorem good_run : (es : List Ev) → InOrder es.reverse → (∀ c, .conf c ∈ es.reverse → 1 ≤ c.threads) →
    ∃ l, (run .init es.reverse).2 = some l ∧ Inv es.reverse l ∧ Good es.reverse l ∧
      (∀ r ∈ (run .init es.reverse).1, ∃ l', r = .returned l')
  | [], _, _ => by
    refine ⟨_, rfl, inv_init, ⟨rfl, fun _ => rfl, (by intro h; cases h), ?_, (by intro h; cases h)⟩, ?_⟩
    · intro c h; simp [lastConf] at h
    · intro r hr; simp [run] at hr
  | e :: es, ho, ht => by
    rw [List.reverse_cons] at ho ht ⊢
    rw [inOrder_snoc] at ho
    have ht' : ∀ c, .conf c ∈ es.reverse → 1 ≤ c.threads := fun c hc => ht c (List.mem_append_left _ hc)
    obtain ⟨l, hl, hi, hg, hr⟩ := good_run es ho.1 ht'
    obtain ⟨l', h1, h2, h3⟩ := (step_inv hi e).2 (fits_mild ho.2)
    have h4 : step l e = .returned l' := by
      rcases h3 with h3 | ⟨rfl, h5, _⟩
      · exact h3
      · exact absurd ho.2 h5
    refine ⟨l', ?_, h2, good_step hi hg e ho.2 ?_ h4, ?_⟩
    · rw [run_snoc, hl]; exact h1
    · intro c hc
      apply ht'
      have := List.mem_of_getLast? hc
      simp only [List.mem_filterMap] at this
      obtain ⟨x, hx, hc'⟩ := this
      cases x <;> simp_all
    · rw [run_snoc, hl]
      intro r hm
      rcases List.mem_append.mp hm with hm | hm
      · exact hr r hm
      · have : r = step l e := by simpa using hm
        exact ⟨l', by rw [this, h4]⟩

/-- C116 (commands that fit). If every command fits what the link is doing and every configuration has a thread
for requests, then all commands succeed; a run uses the last configuration; every request that arrived in a run
has been looked up when the run is over. -/
theorem C116_in_order_partial (es : List Ev) (h : InOrder es) (ht : ∀ c, .conf c ∈ es → 1 ≤ c.threads) :
    ∃ l, (run .init es).2 = some l ∧ (∀ r ∈ (run .init es).1, ∃ l', r = .returned l') ∧
      l.lost = 0 ∧ l.handled + l.queued = requests es ∧ (¬ Running es → l.handled = requests es) ∧
      (Running es → ∃ c, lastConf es = some c ∧ l.pool = some c.threads ∧ l.slots = c.slots) := by
  have := good_run es.reverse
  simp only [List.reverse_reverse] at this
  obtain ⟨l, hl, hi, hg, hr⟩ := this h ht
  have ha := hi.account
  have h0 := hg.lost
  refine ⟨l, hl, hr, h0, by omega, ?_, ?_⟩
  · intro hn
    have hb : l.busy = false := by
      cases hx : l.busy
      · rfl
      · exact absurd (hi.busy.mp hx) hn
    have := hg.idle hb
    omega
  · intro hn
    have hb := hi.busy.mpr hn
    obtain ⟨c, hc⟩ := hg.some hb
    exact ⟨c, hc, by rw [hg.pool hb, (hg.conf c hc).1], (hg.conf c hc).2⟩

theorem inOrder_nil : InOrder [] := fun a e b h => by simp at h

theorem harmless_nil : Harmless [] := fun a e b h => by simp at h

theorem running_nil : ¬ Running [] := by rintro ⟨a, b, h, _⟩; simp at h

theorem recording_nil : ¬ Recording [] := by rintro ⟨a, b, h, _⟩; simp at h

/-- Two runs with a recording, requests in both, and a new configuration in between. -/
def twoRuns : List Ev :=
  [.conf ⟨2, 100, true⟩, .start, .request, .record, .request, .handle, .stop, .scrap, .conf ⟨4, 200, true⟩, .start,
    .request]

/-- Non-vacuity: `twoRuns` is in order; of its three requests two have been looked up and one is queued. -/
theorem twoRuns_inOrder : InOrder twoRuns := by
  have : twoRuns = ((((((((((([] ++ [.conf ⟨2, 100, true⟩]) ++ [.start]) ++ [.request]) ++ [.record]) ++
    [.request]) ++ [.handle]) ++ [.stop]) ++ [.scrap]) ++ [.conf ⟨4, 200, true⟩]) ++ [.start]) ++ [.request] : List Ev) := rfl
  rw [this]
  simp only [inOrder_snoc, Fits, running_snoc, recording_snoc, configured_snoc]
  simp [inOrder_nil, running_nil, recording_nil]

example : ∃ l, (run .init twoRuns).2 = some l ∧ l.handled = 2 ∧ l.queued = 1 ∧ l.pool = some 4 ∧ l.slots = 200 :=
  ⟨_, rfl, rfl, rfl, rfl, rfl⟩

example : InOrder twoRuns ∧ (∀ c, .conf c ∈ twoRuns → 1 ≤ c.threads) ∧ Running twoRuns ∧ requests twoRuns = 3 := by
  refine ⟨twoRuns_inOrder, ?_, ⟨twoRuns.take 9, [.request], rfl, by simp⟩, rfl⟩
  intro c hc
  simp [twoRuns] at hc
  rcases hc with rfl | rfl <;> decide

/-- Non-vacuity of `C116_survives_iff` and `C116_refused_iff`: `stop`, `start`, `scrap`, `stop`, `stop` without a
configuration is survived, the first and the last command fail. -/
example : (run .init [.stop, .start, .scrap, .stop, .stop]).1.map (fun r => match r with | .threw _ => true | _ => false)
    = [true, false, false, false, true] := by decide

example : Harmless ([.stop, .start, .scrap, .stop] ++ [.stop]) := by
  rw [← C116_survives_iff]; decide

/-- C116 is false: a second `start` in a run is not refused but ends the process. -/
theorem C116_start_counterexample (c : Conf) :
    run .init [.conf c, .start, .start] =
      ([.returned { Link.init with flag := true, threads := c.threads, slots := c.slots, file := c.raw },
        .returned { Link.init with flag := true, threads := c.threads, slots := c.slots, file := c.raw,
                                   pool := some c.threads, waiter := true, busy := true },
        .terminated], none) := rfl

/-- C116 is false: a `conf` in a run is not refused but releases the buffer under the threads that use it. So
does a `conf` while a recording started outside a run is going on. -/
theorem C116_conf_counterexample (c d : Conf) :
    (run .init [.conf c, .start, .conf d]).2 = none ∧
    (run .init [.conf c, .start, .conf d]).1.getLast? = some (.ub .danglingBlock) ∧
    (c.raw = true → (run .init [.conf c, .record, .conf d]).1.getLast? = some (.ub .danglingBlock)) := by
  refine ⟨rfl, rfl, ?_⟩
  intro h
  obtain ⟨t, n, r⟩ := c
  simp only at h
  subst h
  rfl

theorem run_append (l : Link) (es fs : List Ev) :
    (run l (es ++ fs)).2 = match (run l es).2 with | some l' => (run l' fs).2 | none => none := by
  induction es generalizing l with
  | nil => rfl
  | cons x xs ih =>
    cases h : (step l x).link? with
    | none => simp [run, h]
    | some l' => simp only [List.cons_append, run, h, ih]

theorem run_requests (n : Nat) (l : Link) (h : l.busy = true) (hp : l.pool = some 0) :
    (run l (List.replicate n .request)).2 = some { l with queued := l.queued + n } := by
  induction n generalizing l with
  | zero => rfl
  | succ n ih =>
    have hs : step l .request = .returned { l with queued := l.queued + 1 } := by
      simp [step, request, h, hp]
    simp only [List.replicate_succ, run, hs, Res.link?]
    rw [ih]
    · simp only [Option.some.injEq, Link.mk.injEq, true_and, and_true]; omega
    · exact h
    · exact hp

/-- C116 is false: a `start` before any `conf` is not refused; the run has no thread for requests. However many
requests arrive, none is looked up, `stop` succeeds all the same, and the next `start` drops them. -/
theorem C116_unconfigured_counterexample (n : Nat) :
    (∃ l, (run .init ([.start] ++ (List.replicate n .request ++ [.stop]))).2 = some l ∧ l.handled = 0 ∧
      l.queued = n ∧ l.flag = false) ∧
    (∃ l, (run .init ([.start] ++ (List.replicate n .request ++ [.stop, .start]))).2 = some l ∧ l.handled = 0 ∧
      l.lost = n) := by
  have h1 : (run .init [.start]).2 = some { Link.init with pool := some 0, waiter := true, busy := true } := rfl
  have h2 := run_requests n { Link.init with pool := some 0, waiter := true, busy := true } rfl rfl
  rw [run_append, run_append, h1]
  simp only
  rw [run_append, run_append, h2]
  simp [run, step, stop, start, newPool, Res.link?, Link.init]

/-- C116 is false: after `scrap` the link still starts, with the configuration that was scrapped. -/
theorem C116_scrap_counterexample (c : Conf) :
    ∃ l, (run .init [.conf c, .scrap, .start]).2 = some l ∧ l.flag = false ∧ l.busy = true ∧
      l.pool = some c.threads ∧ l.slots = c.slots := ⟨_, rfl, rfl, rfl, rfl, rfl⟩

end Verif.Cmd
