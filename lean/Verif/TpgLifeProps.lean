import Verif.TpgLifeModel
/- Property C118: hit finding in software over configurations and runs. -/
namespace Verif.TpgLife

/-- Specification: a configuration with hit finding. -/
def Enables (e : Ev) : Prop := ∃ c, e = .conf true c

/-- Specification: any configuration. -/
def Configures (e : Ev) : Prop := ∃ b c, e = .conf b c

/-- Specification: a run is going on that was started after hit finding was configured. -/
def Searching (es : List Ev) : Prop := ∃ a b, es = a ++ .start :: b ∧ .stop ∉ b ∧ ∃ e ∈ a, Enables e

/-- Specification: hit finding is not configured without output queues or while hits are being sought, and no run
is started in a run in which hits are being sought. -/
def Fits (sinks : Bool) (es : List Ev) : Ev → Prop
  | .conf true _ => sinks = true ∧ ¬ Searching es
  | .start => ¬ Searching es
  | _ => True

/-- Specification: every event fits what came before. -/
def AllFit (sinks : Bool) (es : List Ev) : Prop := ∀ a e b, es = a ++ e :: b → Fits sinks a e

/-- Specification: settings of the configurations with hit finding, in order. -/
def enabling : List Ev → List Nat
  | [] => []
  | .conf true c :: es => c :: enabling es
  | _ :: es => enabling es

theorem enabling_append (a b : List Ev) : enabling (a ++ b) = enabling a ++ enabling b := by
  induction a with
  | nil => rfl
  | cons e a ih => cases e with
    | conf t c => cases t <;> simp [enabling, ih]
    | _ => simp [enabling, ih]

theorem enabling_ne (es : List Ev) : enabling es ≠ [] ↔ ∃ e ∈ es, Enables e := by
  induction es with
  | nil => simp [enabling]
  | cons e es ih => cases e with
    | conf t c => cases t <;> simp [enabling, ih, Enables]
    | _ => simp [enabling, ih, Enables]

theorem snoc_split {α : Type} {es a b : List α} {e x : α} (h : es ++ [e] = a ++ x :: b) :
    (b = [] ∧ es = a ∧ e = x) ∨ ∃ b', b = b' ++ [e] ∧ es = a ++ x :: b' := by
  rcases List.eq_nil_or_concat b with rfl | ⟨b', y, rfl⟩
  · have h' := List.append_inj' h rfl
    exact .inl ⟨rfl, h'.1, by simpa using h'.2⟩
  · rw [List.concat_eq_append, ← List.cons_append, ← List.append_assoc] at h
    have h' := List.append_inj' h rfl
    have hx : e = y := by simpa using h'.2
    exact .inr ⟨b', by rw [List.concat_eq_append, hx], h'.1⟩

theorem allFit_nil (k : Bool) : AllFit k [] := fun a e b h => by simp at h

theorem allFit_snoc (k : Bool) (es : List Ev) (e : Ev) : AllFit k (es ++ [e]) ↔ AllFit k es ∧ Fits k es e := by
  constructor
  · intro h
    exact ⟨fun a x b he => h a x (b ++ [e]) (by simp [he]), h es e [] rfl⟩
  · rintro ⟨h1, h2⟩ a x b he
    rcases snoc_split he with ⟨-, rfl, rfl⟩ | ⟨b', -, rfl⟩
    · exact h2
    · exact h1 a x b' rfl

theorem searching_snoc (es : List Ev) (e : Ev) :
    Searching (es ++ [e]) ↔ (e = .start ∧ ∃ x ∈ es, Enables x) ∨ (Searching es ∧ e ≠ .stop) := by
  constructor
  · rintro ⟨a, b, h, hb, hx⟩
    rcases snoc_split h with ⟨-, rfl, rfl⟩ | ⟨b', rfl, rfl⟩
    · exact .inl ⟨rfl, hx⟩
    · exact .inr ⟨⟨a, b', rfl, fun hm => hb (by simp [hm]), hx⟩, fun he => hb (by simp [he])⟩
  · rintro (⟨rfl, hx⟩ | ⟨⟨a, b, rfl, hb, hx⟩, hne⟩)
    · exact ⟨es, [], by simp, by simp, hx⟩
    · exact ⟨a, b ++ [e], by simp, by simp [hb]; exact fun h => hne h.symm, hx⟩

theorem run_append (k : Bool) (s : St) (a b : List Ev) :
    run k s (a ++ b) = (do run k (← run k s a) b) := by
  induction a generalizing s with
  | nil => rfl
  | cons e a ih =>
    simp only [List.cons_append, run]
    cases step k s e with
    | ok t => simpa using ih t
    | ub w => rfl
    | throws x => rfl

theorem run_snoc (k : Bool) (s : St) (a : List Ev) (e : Ev) :
    run k s (a ++ [e]) = (do step k (← run k s a) e) := by
  rw [run_append]
  cases run k s a with
  | ok t =>
    simp only [Outcome.bind_ok, run]
    cases step k t e <;> rfl
  | ub w => rfl
  | throws x => rfl

/-- Invariant: the buffers exist exactly while hits are being sought. -/
structure Inv (es : List Ev) (s : St) : Prop where
  enabled : s.enabled = !(enabling es).isEmpty
  fns : s.fns = (enabling es).length
  handler : s.handler = (enabling es).getLast?
  ind : s.ind.isSome = s.enabled
  cap : ∀ n, s.ind = some n → n < indSlots
  on : Searching es → s.busy = s.fns ∧ s.enabled = true ∧ ∃ p, s.heap = ⟨[p + 3, p + 2, p + 1, p], p + 4⟩ ∧
    s.collTaps = some p ∧ s.indTaps = some (p + 1) ∧ s.collDest = some (p + 2) ∧ s.indDest = some (p + 3) ∧
    s.collPi = some (p + 2, p)
  off : ¬ Searching es → s.busy = 0 ∧ s.heap.live = [] ∧ s.collTaps = none ∧ s.indTaps = none ∧
    s.collDest = none ∧ s.indDest = none

theorem inv_init : Inv [] St.init := by
  refine ⟨rfl, rfl, rfl, rfl, by simp [St.init], ?_, fun _ => by simp [St.init]⟩
  rintro ⟨a, b, h, -⟩; simp at h

/-- What one call of the hit finder does while the buffers exist. -/
theorem search_ok {es : List Ev} {s : St} (h : Inv es s) (hs : Searching es) :
    ∃ n c, s.ind = some n ∧ s.handler = some c ∧
      search s = .ok { s with ind := some (if n + 1 < indSlots then n + 1 else n),
                              searches := s.searches ++ [c] } := by
  obtain ⟨h1, h2, p, h3, h4, h5, h6, h7, h8⟩ := h.on hs
  have hi : s.ind.isSome = true := by rw [h.ind, h2]
  obtain ⟨n, hn⟩ := Option.isSome_iff_exists.mp hi
  have hne : enabling es ≠ [] := by
    have := h.enabled; rw [h2] at this
    intro he; simp [he] at this
  obtain ⟨c, hc⟩ : ∃ c, s.handler = some c := by
    rw [h.handler]
    exact Option.isSome_iff_exists.mp (by simpa using hne)
  refine ⟨n, c, hn, hc, ?_⟩
  unfold search
  rw [hn, h8, h6, hc]
  simp [use, h3]

theorem inv_search {es : List Ev} {s : St} (h : Inv es s) (n : Nat) (l : List Nat)
    (hi : s.ind.isSome = true) (hn : n < indSlots) : Inv es { s with ind := some n, searches := l } :=
  ⟨h.enabled, h.fns, h.handler, by rw [← h.ind, hi]; rfl, fun m hm => by cases hm; exact hn, h.on, h.off⟩

theorem searchAll_ok {es : List Ev} (hs : Searching es) (k : Nat) {s : St} (h : Inv es s) {n c : Nat}
    (hn : s.ind = some n) (hc : s.handler = some c) :
    searchAll k s = .ok { s with ind := some (min (indSlots - 1) (n + k)),
                                 searches := s.searches ++ List.replicate k c } := by
  induction k generalizing s n with
  | zero =>
    have := h.cap n hn
    have e : min (indSlots - 1) (n + 0) = n := by omega
    rw [e]
    cases s
    simp only at hn
    simp [searchAll, hn]
  | succ k ih =>
    obtain ⟨m, d, hm, hd, he⟩ := search_ok h hs
    rw [hn] at hm; cases hm
    rw [hc] at hd; cases hd
    have hlt := h.cap n hn
    have hi := inv_search h (if n + 1 < indSlots then n + 1 else n) (s.searches ++ [c]) (by rw [hn]; rfl)
      (by split <;> omega)
    unfold searchAll
    rw [he]
    simp only [Outcome.bind_ok]
    rw [ih hi rfl hc]
    have e : min (indSlots - 1) ((if n + 1 < indSlots then n + 1 else n) + k) = min (indSlots - 1) (n + (k + 1)) := by
      split <;> omega
    rw [e]
    simp [List.append_assoc, List.replicate_succ]

theorem payload_ok {es : List Ev} {s : St} (h : Inv es s) :
    (¬ Searching es ∧ searchAll s.busy s = .ok s) ∨
    (Searching es ∧ ∃ n c, s.ind = some n ∧ s.handler = some c ∧ searchAll s.busy s =
      .ok { s with ind := some (min (indSlots - 1) (n + s.fns)),
                   searches := s.searches ++ List.replicate s.fns c }) := by
  by_cases hs : Searching es
  · obtain ⟨n, c, hn, hc, -⟩ := search_ok h hs
    refine .inr ⟨hs, n, c, hn, hc, ?_⟩
    have := searchAll_ok hs s.busy h hn hc
    rwa [show n + s.busy = n + s.fns by rw [(h.on hs).1],
      show List.replicate s.busy c = List.replicate s.fns c by rw [(h.on hs).1]] at this
  · refine .inl ⟨hs, ?_⟩
    rw [(h.off hs).1]
    rfl

theorem inv_payload {es : List Ev} {s : St} (h : Inv es s) : Inv (es ++ [.payload]) s := by
  have e : enabling (es ++ [.payload]) = enabling es := by rw [enabling_append]; simp [enabling]
  have hs : Searching (es ++ [.payload]) ↔ Searching es := by rw [searching_snoc]; simp
  exact ⟨by rw [e]; exact h.enabled, by rw [e]; exact h.fns, by rw [e]; exact h.handler, h.ind, h.cap,
    fun x => h.on (hs.mp x), fun x => h.off (fun y => x (hs.mpr y))⟩

theorem inv_stop {es : List Ev} {s : St} (h : Inv es s) :
    ∃ t, stopCmd s = .ok t ∧ Inv (es ++ [.stop]) t ∧ t.searches = s.searches ∧ t.queues = s.queues ∧
      t.ind = s.ind := by
  have e : enabling (es ++ [.stop]) = enabling es := by rw [enabling_append]; simp [enabling]
  have hs : ¬ Searching (es ++ [.stop]) := by rw [searching_snoc]; simp
  by_cases hon : Searching es
  · obtain ⟨h1, h2, p, h3, h4, h5, h6, h7, h8⟩ := h.on hon
    refine ⟨{ s with heap := ⟨[], p + 4⟩, collTaps := none, collDest := none, indTaps := none, indDest := none,
                     busy := 0 }, ?_, ?_, rfl, rfl, rfl⟩
    · simp [stopCmd, release, h2, h3, h4, h5, h6, h7]
    · exact ⟨by rw [e]; exact h.enabled, by rw [e]; exact h.fns, by rw [e]; exact h.handler, h.ind, h.cap,
        fun x => absurd x hs, fun _ => by simp⟩
  · obtain ⟨h1, h2, h3, h4, h5, h6⟩ := h.off hon
    refine ⟨{ s with busy := 0 }, ?_, ?_, rfl, rfl, rfl⟩
    · unfold stopCmd
      split
      · rw [h3, h4, h5, h6]
        simp [release]
      · rfl
    · exact ⟨by rw [e]; exact h.enabled, by rw [e]; exact h.fns, by rw [e]; exact h.handler, h.ind, h.cap,
        fun x => absurd x hs, fun _ => ⟨rfl, h2, h3, h4, h5, h6⟩⟩

theorem inv_start {es : List Ev} {s : St} (h : Inv es s) (hs : ¬ Searching es) :
    ∃ t, startCmd s = .ok t ∧ Inv (es ++ [.start]) t ∧ t.searches = s.searches ∧ t.queues = s.queues ∧
      t.ind = s.ind := by
  have e : enabling (es ++ [.start]) = enabling es := by rw [enabling_append]; simp [enabling]
  obtain ⟨h1, h2, h3, h4, h5, h6⟩ := h.off hs
  by_cases hn : enabling es = []
  · have hen : s.enabled = false := by rw [h.enabled, hn]; rfl
    have hf : s.fns = 0 := by rw [h.fns, hn]; rfl
    have hno : ¬ Searching (es ++ [.start]) := by
      rw [searching_snoc, ← enabling_ne]
      simp [hn, hs]
    refine ⟨{ s with busy := s.fns }, by simp [startCmd, hen], ?_, rfl, rfl, rfl⟩
    exact ⟨by rw [e]; exact h.enabled, by rw [e]; exact h.fns, by rw [e]; exact h.handler, h.ind, h.cap,
      fun x => absurd x hno, fun _ => ⟨hf, h2, h3, h4, h5, h6⟩⟩
  · have hen : s.enabled = true := by
      rw [h.enabled]
      cases hx : enabling es with
      | nil => exact absurd hx hn
      | cons a l => rfl
    obtain ⟨c, hc⟩ : ∃ c, s.handler = some c := by
      rw [h.handler]
      exact Option.isSome_iff_exists.mp (by simpa using hn)
    have hyes : Searching (es ++ [.start]) := by
      rw [searching_snoc, ← enabling_ne]
      exact .inl ⟨rfl, hn⟩
    refine ⟨{ s with
      heap := ⟨[s.heap.next + 3, s.heap.next + 2, s.heap.next + 1, s.heap.next], s.heap.next + 4⟩,
      collTaps := some s.heap.next, indTaps := some (s.heap.next + 1), collDest := some (s.heap.next + 2),
      indDest := some (s.heap.next + 3), collPi := some (s.heap.next + 2, s.heap.next),
      indPi := some (s.heap.next + 3, s.heap.next + 1), busy := s.fns }, ?_, ?_, rfl, rfl, rfl⟩
    · simp [startCmd, hen, hc, alloc, use, h1, h2, h3, h4, h5, h6]
    · exact ⟨by rw [e]; exact h.enabled, by rw [e]; exact h.fns, by rw [e]; exact h.handler, h.ind, h.cap,
        fun _ => ⟨rfl, hen, _, rfl, rfl, rfl, rfl, rfl, rfl⟩, fun x => absurd hyes x⟩

theorem inv_enable {es : List Ev} {s : St} (h : Inv es s) (c : Nat) (hs : ¬ Searching es) :
    Inv (es ++ [.conf true c]) { s with enabled := true, handler := some c, ind := some 0, fns := s.fns + 1,
                                        queues := s.queues + (s.fns + 1) } := by
  have e : enabling (es ++ [.conf true c]) = enabling es ++ [c] := by rw [enabling_append]; simp [enabling]
  have hs' : ¬ Searching (es ++ [.conf true c]) := by rw [searching_snoc]; simp [hs]
  exact ⟨by rw [e]; simp, by rw [e]; simp [h.fns], by rw [e]; simp, rfl,
    fun n hn => by cases hn; simp [indSlots], fun x => absurd x hs', fun _ => h.off hs⟩

theorem inv_disable {es : List Ev} {s : St} (h : Inv es s) (c q : Nat) :
    Inv (es ++ [.conf false c]) { s with queues := q } := by
  have e : enabling (es ++ [.conf false c]) = enabling es := by rw [enabling_append]; simp [enabling]
  have hs : Searching (es ++ [.conf false c]) ↔ Searching es := by rw [searching_snoc]; simp
  exact ⟨by rw [e]; exact h.enabled, by rw [e]; exact h.fns, by rw [e]; exact h.handler, h.ind, h.cap,
    fun x => h.on (hs.mp x), fun x => h.off (fun y => x (hs.mpr y))⟩

/-- An event that fits succeeds. -/
theorem step_ok {k : Bool} {es : List Ev} {s : St} (h : Inv es s) {e : Ev} (hf : Fits k es e) :
    ∃ t, step k s e = .ok t ∧ Inv (es ++ [e]) t := by
  cases e with
  | conf t c => cases t with
    | true =>
      refine ⟨_, ?_, inv_enable h c hf.2⟩
      simp [step, confCmd, hf.1, (h.off hf.2).1]
    | false => exact ⟨_, by simp [step, confCmd]; rfl, inv_disable h c _⟩
  | start => obtain ⟨t, h1, h2, -⟩ := inv_start h hf; exact ⟨t, h1, h2⟩
  | payload =>
    rcases payload_ok h with ⟨-, he⟩ | ⟨hs, n, c, hn, hc, he⟩
    · exact ⟨s, he, inv_payload h⟩
    · refine ⟨_, he, inv_payload (inv_search h _ _ (by rw [hn]; rfl) (by simp [indSlots]; omega))⟩
  | stop => obtain ⟨t, h1, h2, -⟩ := inv_stop h; exact ⟨t, h1, h2⟩

/-- An event that does not fit has undefined behaviour. -/
theorem step_bad {k : Bool} {es : List Ev} {s : St} (h : Inv es s) {e : Ev} (hf : ¬ Fits k es e) :
    ∃ w, step k s e = .ub w := by
  have pos : Searching es → 0 < s.busy := by
    intro hs
    obtain ⟨h1, h2, -⟩ := h.on hs
    have h3 := h.enabled
    have h4 := h.fns
    cases hx : enabling es with
    | nil => rw [hx, h2] at h3; simp at h3
    | cons a l => rw [hx] at h4; simp at h4; omega
  cases e with
  | conf t c => cases t with
    | true =>
      cases k with
      | false => exact ⟨_, rfl⟩
      | true =>
        have hs : Searching es := Classical.byContradiction fun x => hf ⟨rfl, x⟩
        have := pos hs
        refine ⟨.danglingBlock, ?_⟩
        simp only [step, confCmd, if_true]
        rw [if_neg (by omega)]
    | false => exact absurd trivial hf
  | start =>
    have hs : Searching es := Classical.byContradiction fun x => hf x
    have hp := pos hs
    obtain ⟨h1, h2, p, h3, h4, h5, h6, h7, h8⟩ := h.on hs
    obtain ⟨n, c, hn, hc, -⟩ := search_ok h hs
    refine ⟨.danglingBlock, ?_⟩
    have : s.busy ≠ 0 := by omega
    simp [step, startCmd, h2, hc, alloc, use, h3, h4, h5, this]
  | payload => exact absurd trivial hf
  | stop => exact absurd trivial hf

theorem reach (k : Bool) (es : List Ev) :
    (AllFit k es → ∃ s, run k .init es = .ok s ∧ Inv es s) ∧
    (¬ AllFit k es → ∃ w, run k .init es = .ub w) := by
  suffices H : ∀ l : List Ev, (AllFit k l.reverse → ∃ s, run k .init l.reverse = .ok s ∧ Inv l.reverse s) ∧
      (¬ AllFit k l.reverse → ∃ w, run k .init l.reverse = .ub w) by
    simpa using H es.reverse
  intro l
  induction l with
  | nil => exact ⟨fun _ => ⟨_, rfl, inv_init⟩, fun h => absurd (allFit_nil k) h⟩
  | cons e l ih =>
    rw [List.reverse_cons, allFit_snoc, run_snoc]
    constructor
    · rintro ⟨h1, h2⟩
      obtain ⟨s, hs, hi⟩ := ih.1 h1
      rw [hs]
      exact step_ok hi h2
    · intro h
      by_cases h1 : AllFit k l.reverse
      · obtain ⟨s, hs, hi⟩ := ih.1 h1
        rw [hs]
        exact step_bad hi fun h2 => h ⟨h1, h2⟩
      · obtain ⟨w, hw⟩ := ih.2 h1
        rw [hw]
        exact ⟨w, rfl⟩

theorem inv_of_run {k : Bool} {es : List Ev} {s : St} (h : run k .init es = .ok s) : Inv es s ∧ AllFit k es := by
  by_cases hf : AllFit k es
  · obtain ⟨t, ht, hi⟩ := (reach k es).1 hf
    rw [h] at ht; cases ht
    exact ⟨hi, hf⟩
  · obtain ⟨w, hw⟩ := (reach k es).2 hf
    rw [h] at hw; cases hw

/-! ### The properties -/

/-- **C118 (survival)** No sequence of configurations, runs and payloads makes the hit finder use a buffer that
does not exist or release one twice, exactly if hit finding is only configured with both output queues connected,
and neither configured nor started while hits are being sought. -/
theorem C118_survives_iff (sinks : Bool) (es : List Ev) :
    (∃ s, run sinks .init es = .ok s) ↔ AllFit sinks es := by
  constructor
  · rintro ⟨s, h⟩
    exact (inv_of_run h).2
  · intro h
    obtain ⟨s, hs, -⟩ := (reach sinks es).1 h
    exact ⟨s, hs⟩

/-- **C118 (memory)** The hit finder holds four buffers while it seeks hits and none otherwise, over any number of
configurations and runs, and the destructor leaves none whenever it is called. -/
theorem C118_memory (sinks : Bool) (es : List Ev) (s : St) (h : run sinks .init es = .ok s) :
    (Searching es → s.heap.live.length = 4 ∧ s.heap.live.Nodup) ∧ (¬ Searching es → s.heap.live = []) ∧
      destroy s = .ok [] := by
  have hi := (inv_of_run h).1
  refine ⟨fun hs => ?_, fun hs => (hi.off hs).2.1, ?_⟩
  · obtain ⟨-, -, p, h3, -⟩ := hi.on hs
    rw [h3]
    simp
  · by_cases hs : Searching es
    · obtain ⟨h1, h2, p, h3, h4, h5, h6, h7, h8⟩ := hi.on hs
      simp [destroy, release, h3, h4, h5, h6, h7]
    · obtain ⟨h1, h2, h3, h4, h5, h6⟩ := hi.off hs
      simp [destroy, release, h2, h3, h4, h5, h6]

/-- **C118 (what is searched)** A payload of a run is searched once for every configuration with hit finding
ever given, with the settings of the latest of these; otherwise it is not searched. -/
theorem C118_searched (sinks : Bool) (es : List Ev) (s : St) (h : run sinks .init es = .ok s) :
    ∃ t, run sinks .init (es ++ [.payload]) = .ok t ∧
      (Searching es → ∃ a c, enabling es = a ++ [c] ∧
        t.searches = s.searches ++ List.replicate (a.length + 1) c) ∧
      (¬ Searching es → t.searches = s.searches) := by
  have hi := (inv_of_run h).1
  rw [run_snoc, h]
  rcases payload_ok hi with ⟨hs, he⟩ | ⟨hs, n, c, hn, hc, he⟩
  · exact ⟨s, he, fun x => absurd x hs, fun _ => rfl⟩
  · refine ⟨_, he, fun _ => ?_, fun x => absurd hs x⟩
    rw [hi.handler] at hc
    rcases List.eq_nil_or_concat (enabling es) with hx | ⟨a, y, hx⟩
    · rw [hx] at hc; simp at hc
    · rw [List.concat_eq_append] at hx
      rw [hx] at hc
      have : y = c := by simpa using hc
      subst this
      refine ⟨a, y, hx, ?_⟩
      simp [hi.fns, hx]

/-- **C118 (partial)** If no configuration with hit finding came before the latest configuration, that one decides:
a payload of a run is searched exactly once, with its settings, if it enables hit finding and not at all if not.
Missing: earlier configurations with hit finding, where this is false. -/
theorem C118_latest_partial (sinks : Bool) (a b : List Ev) (tpg : Bool) (c : Nat) (s : St)
    (ha : ∀ e ∈ a, ¬ Enables e) (hb : ∀ e ∈ b, ¬ Configures e) (hr : ∃ b1 b2, b = b1 ++ .start :: b2 ∧ .stop ∉ b2)
    (h : run sinks .init (a ++ .conf tpg c :: b) = .ok s) :
    ∃ t, run sinks .init (a ++ .conf tpg c :: b ++ [.payload]) = .ok t ∧
      t.searches = s.searches ++ if tpg then [c] else [] := by
  obtain ⟨t, ht, h1, h2⟩ := C118_searched sinks _ s h
  refine ⟨t, ht, ?_⟩
  have none_ : ∀ l : List Ev, (∀ e ∈ l, ¬ Enables e) → enabling l = [] := by
    intro l hl
    refine Classical.byContradiction fun hx => ?_
    obtain ⟨e, he, hy⟩ := (enabling_ne l).mp hx
    exact hl e he hy
  have ea := none_ a ha
  have eb := none_ b fun e he hx => hb e he (by obtain ⟨c, rfl⟩ := hx; exact ⟨_, _, rfl⟩)
  obtain ⟨b1, b2, rfl, hstop⟩ := hr
  cases tpg with
  | true =>
    have hs : Searching (a ++ .conf true c :: (b1 ++ .start :: b2)) :=
      ⟨a ++ .conf true c :: b1, b2, by simp, hstop, .conf true c, by simp, c, rfl⟩
    obtain ⟨x, d, hx, hy⟩ := h1 hs
    have e : enabling (a ++ .conf true c :: (b1 ++ .start :: b2)) = [c] := by
      rw [enabling_append, ea]
      show [] ++ (c :: enabling (b1 ++ .start :: b2)) = [c]
      rw [eb]; rfl
    rw [e] at hx
    cases x with
    | nil => simp at hx; subst hx; simpa using hy
    | cons y l => simp at hx
  | false =>
    have hs : ¬ Searching (a ++ .conf false c :: (b1 ++ .start :: b2)) := by
      rintro ⟨x, y, hx, -, hz⟩
      rw [← enabling_ne] at hz
      have e : enabling (a ++ .conf false c :: (b1 ++ .start :: b2)) = [] := by
        rw [enabling_append, ea]
        show [] ++ enabling (b1 ++ .start :: b2) = []
        rw [eb]; rfl
      rw [hx, enabling_append] at e
      exact hz (List.append_eq_nil_iff.mp e).1
    simp [h2 hs]

/-- **C118 is false of the code (1)** Hit finding once configured is never switched off: after a configuration
without it, the payloads of a run are still searched, with the old settings. -/
theorem C118_disabled_counterexample :
    ∃ s, run true .init [.conf true 1, .start, .stop, .conf false 2, .start, .payload] = .ok s ∧
      s.searches = [1] ∧ 0 < unread s := by
  exact ⟨_, rfl, by decide, by decide⟩

/-- **C118 is false of the code (2)** A second configuration with hit finding makes every payload be searched
twice. -/
theorem C118_twice_counterexample :
    ∃ s, run true .init [.conf true 1, .conf true 2, .start, .payload] = .ok s ∧ s.searches = [2, 2] := by
  exact ⟨_, rfl, by decide⟩

/-- **C118 is false of the code (3)** Hit finding configured without output queues is not refused. -/
theorem C118_no_sinks_counterexample (c : Nat) : run false .init [.conf true c] = .ub .nullDeref := rfl

theorem queues_reach (k : Bool) (es : List Ev) (s : St) (h : run k .init es = .ok s) :
    s.fns ≤ s.queues ∧
    (s.queues = s.fns ↔ ∀ a e b, es = a ++ e :: b → Enables e → ∀ x ∈ b, ¬ Configures x) := by
  suffices H : ∀ l : List Ev, ∀ s, run k .init l.reverse = .ok s → s.fns ≤ s.queues ∧
      (s.queues = s.fns ↔
        ∀ a e b, l.reverse = a ++ e :: b → Enables e → ∀ x ∈ b, ¬ Configures x) by
    have := H es.reverse s; rw [List.reverse_reverse] at this; exact this h
  intro l
  induction l with
  | nil =>
    intro s h
    simp only [List.reverse_nil, run, Outcome.ok.injEq] at h
    subst h
    exact ⟨Nat.le_refl _, fun _ a e b h => by simp at h, fun _ => rfl⟩
  | cons e l ih =>
    intro s h
    rw [List.reverse_cons, run_snoc] at h
    cases hr : run k .init l.reverse with
    | ub w => rw [hr] at h; cases h
    | throws x => rw [hr] at h; cases h
    | ok t =>
      rw [hr] at h
      simp only [Outcome.bind_ok] at h
      have hi := (inv_of_run hr).1
      obtain ⟨q1, q2⟩ := ih t hr
      -- the specification for one more event
      have spec : (∀ a x b, l.reverse ++ [e] = a ++ x :: b → Enables x → ∀ y ∈ b, ¬ Configures y) ↔
          (∀ a x b, l.reverse = a ++ x :: b → Enables x → ∀ y ∈ b, ¬ Configures y) ∧
          (Configures e → enabling l.reverse = []) := by
        constructor
        · intro H
          refine ⟨fun a x b hx he y hy => H a x (b ++ [e]) (by simp [hx]) he y (by simp [hy]), fun hc => ?_⟩
          refine Classical.byContradiction fun hn => ?_
          obtain ⟨x, hx, hen⟩ := (enabling_ne _).mp hn
          obtain ⟨a, b, hab⟩ := List.append_of_mem hx
          exact H a x (b ++ [e]) (by simp [hab]) hen e (by simp) hc
        · rintro ⟨H1, H2⟩ a x b hx he y hy hcy
          rcases snoc_split hx with ⟨rfl, -, -⟩ | ⟨b', rfl, hl⟩
          · simp at hy
          · rcases List.mem_append.mp hy with hy | hy
            · exact H1 a x b' hl he y hy hcy
            · have : y = e := by simpa using hy
              subst this
              have := H2 hcy
              exact absurd this ((enabling_ne _).mpr ⟨x, by rw [hl]; simp, he⟩)
      rw [List.reverse_cons, spec, ← q2]
      have hf := hi.fns
      have nil0 : enabling l.reverse = [] ↔ t.fns = 0 := by
        rw [hf]; exact List.length_eq_zero_iff.symm
      cases e with
      | conf tp c =>
        have hc : Configures (.conf tp c) := ⟨_, _, rfl⟩
        cases tp with
        | true =>
          simp only [step, confCmd, if_true] at h
          split at h
          · split at h
            · cases h
              simp only [nil0, hc, true_implies]
              omega
            · cases h
          · cases h
        | false =>
          simp [step, confCmd] at h
          subst h
          simp only [nil0, hc, true_implies]
          omega
      | start =>
        have hn : ¬ Configures .start := by rintro ⟨b, c, h⟩; cases h
        have hfit : ¬ Searching l.reverse := by
          intro hs
          obtain ⟨w, hw⟩ := step_bad (k := k) hi (e := .start) (fun x => x hs)
          rw [hw] at h; cases h
        obtain ⟨t', ht, hi', -, hq, -⟩ := inv_start hi hfit
        simp only [step] at h
        rw [ht] at h; cases h
        have e1 := hi'.fns
        rw [enabling_append] at e1
        simp [enabling] at e1
        simp only [hn, false_implies, and_true]
        omega
      | payload =>
        have hn : ¬ Configures .payload := by rintro ⟨b, c, h⟩; cases h
        simp only [hn, false_implies, and_true]
        rcases payload_ok hi with ⟨-, he⟩ | ⟨hs, n, c, -, -, he⟩
        · simp only [step] at h
          rw [he] at h; cases h; exact ⟨q1, Iff.rfl⟩
        · simp only [step] at h
          rw [he] at h; cases h; exact ⟨q1, Iff.rfl⟩
      | stop =>
        have hn : ¬ Configures .stop := by rintro ⟨b, c, h⟩; cases h
        obtain ⟨t', ht, hi', -, hq, -⟩ := inv_stop hi
        simp only [step] at h
        rw [ht] at h; cases h
        have e1 := hi'.fns
        rw [enabling_append] at e1
        simp [enabling] at e1
        simp only [hn, false_implies, and_true]
        omega

/-- **C118 (unread queues)** There is a queue that fills up without being read exactly if a configuration of any
kind followed one with hit finding. -/
theorem C118_unread_iff (sinks : Bool) (es : List Ev) (s : St) (h : run sinks .init es = .ok s) :
    unread s = 0 ↔ ∀ a e b, es = a ++ e :: b → Enables e → ∀ x ∈ b, ¬ Configures x := by
  obtain ⟨h1, h2⟩ := queues_reach sinks es s h
  rw [← h2]
  unfold unread
  omega

/-- **C118 (induction samples)** The queue of induction samples is emptied by no run: it holds the samples of the
searches since the latest configuration with hit finding, at most 199999; all others are dropped. -/
theorem C118_induction (sinks : Bool) (a b : List Ev) (c : Nat) (s0 s : St) (hb : ∀ e ∈ b, ¬ Enables e)
    (h0 : run sinks .init (a ++ [.conf true c]) = .ok s0)
    (h : run sinks .init (a ++ .conf true c :: b) = .ok s) :
    s0.searches.length ≤ s.searches.length ∧
      s.ind = some (min 199999 (s.searches.length - s0.searches.length)) := by
  suffices H : ∀ l : List Ev, (∀ e ∈ l.reverse, ¬ Enables e) → ∀ s,
      run sinks .init (a ++ .conf true c :: l.reverse) = .ok s →
      s0.searches.length ≤ s.searches.length ∧
        s.ind = some (min 199999 (s.searches.length - s0.searches.length)) by
    have := H b.reverse; rw [List.reverse_reverse] at this; exact this hb s h
  intro l
  induction l with
  | nil =>
    intro _ s h
    rw [List.reverse_nil, h0] at h
    cases h
    refine ⟨Nat.le_refl _, ?_⟩
    rw [run_snoc] at h0
    cases hr : run sinks .init a with
    | ub w => rw [hr] at h0; cases h0
    | throws x => rw [hr] at h0; cases h0
    | ok t =>
      rw [hr] at h0
      simp only [Outcome.bind_ok, step, confCmd, if_true] at h0
      split at h0
      · split at h0
        · cases h0; simp
        · cases h0
      · cases h0
  | cons e l ih =>
    intro hn s h
    rw [List.reverse_cons, ← List.cons_append, ← List.append_assoc, run_snoc] at h
    rw [List.reverse_cons] at hn
    cases hr : run sinks .init (a ++ .conf true c :: l.reverse) with
    | ub w => rw [hr] at h; cases h
    | throws x => rw [hr] at h; cases h
    | ok t =>
      rw [hr] at h
      simp only [Outcome.bind_ok] at h
      have hi := (inv_of_run hr).1
      obtain ⟨q1, q2⟩ := ih (fun x hx => hn x (by simp only [List.mem_append]; exact .inl hx)) t hr
      cases e with
      | conf tp d => cases tp with
        | true => exact absurd ⟨d, rfl⟩ (hn (.conf true d) (by simp))
        | false => simp [step, confCmd] at h; subst h; exact ⟨q1, q2⟩
      | start =>
        have hfit : ¬ Searching (a ++ .conf true c :: l.reverse) := by
          intro hs
          obtain ⟨w, hw⟩ := step_bad (k := sinks) hi (e := .start) (fun x => x hs)
          rw [hw] at h; cases h
        obtain ⟨t', ht, -, h1, -, h2⟩ := inv_start hi hfit
        simp only [step] at h
        rw [ht] at h; cases h
        rw [h1, h2]; exact ⟨q1, q2⟩
      | stop =>
        obtain ⟨t', ht, -, h1, -, h2⟩ := inv_stop hi
        simp only [step] at h
        rw [ht] at h; cases h
        rw [h1, h2]; exact ⟨q1, q2⟩
      | payload =>
        rcases payload_ok hi with ⟨-, he⟩ | ⟨hs, n, d, hn', -, he⟩
        · simp only [step] at h
          rw [he] at h; cases h; exact ⟨q1, q2⟩
        · simp only [step] at h
          rw [he] at h; cases h
          rw [hn'] at q2
          cases q2
          simp only [List.length_append, List.length_replicate, indSlots, Option.some.injEq]
          omega

/-- Two runs with hit finding and one after a configuration without: the hypotheses can be met. -/
example : ∃ s, run true .init [.conf true 7, .start, .payload, .payload, .stop, .start, .payload] = .ok s ∧
    s.searches = [7, 7, 7] ∧ s.ind = some 3 ∧ unread s = 0 ∧ destroy s = .ok [] := by
  exact ⟨_, rfl, by decide, by decide, by decide, by decide⟩

example : ∃ s, run true .init [.conf false 3, .start, .payload, .stop, .conf true 4, .start, .payload] = .ok s ∧
    s.searches = [4] ∧ s.heap.live = [3, 2, 1, 0] := by
  exact ⟨_, rfl, by decide, by decide⟩

/-- Reading or writing a block is defined only while the block is allocated. -/
theorem use_defined (h : Heap) (p : Nat) : use h p = .ok () ↔ p ∈ h.live := by
  unfold use; split <;> simp_all

end Verif.TpgLife
