import Verif.CardModel
import Verif.EmuProps
import Mathlib.Data.List.Nodup
import Mathlib.Data.List.Perm.Basic
/- Property C76: configuration of an emulator card. -/
namespace Verif.Card

/-- The names of the links of a card. -/
def names (ls : List (String × Link)) : List String := ls.map (·.1)

theorem names_update (ls : List (String × Link)) (n : String) (e : Link) :
    names (update ls n e) = names ls := by
  simp only [names, update, List.map_map]
  apply List.map_congr_left
  intro x _
  simp only [Function.comp]; split <;> rfl

theorem lookup_none {ls : List (String × Link)} {n : String} : lookup ls n = none ↔ n ∉ names ls := by
  simp only [lookup, Option.map_eq_none_iff, List.find?_eq_none, names, List.mem_map, beq_iff_eq]
  constructor
  · rintro h ⟨x, hx, rfl⟩; exact h x hx rfl
  · intro h x hx e; exact h ⟨x, hx, e⟩

theorem lookup_cons (x : String × Link) (ls : List (String × Link)) (n : String) :
    lookup (x :: ls) n = if x.1 = n then some x.2 else lookup ls n := by
  simp only [lookup, List.find?_cons]
  by_cases h : x.1 = n
  · simp [h]
  · rw [if_neg h, beq_eq_false_iff_ne.2 h]

theorem lookup_update (ls : List (String × Link)) (n m : String) (e : Link) :
    lookup (update ls n e) m = if m = n then (lookup ls m).map (fun _ => e) else lookup ls m := by
  induction ls with
  | nil => simp [lookup, update]
  | cons x ls ih =>
    rw [show update (x :: ls) n e = (if x.1 = n then (x.1, e) else x) :: update ls n e from rfl,
      lookup_cons, lookup_cons, ih]
    by_cases h1 : x.1 = n <;> by_cases h2 : m = n
    · subst h1; subst h2; simp
    · have : x.1 ≠ m := fun hh => h2 (hh ▸ h1)
      rw [if_pos h1, if_neg this, if_neg h2, if_neg h2, if_neg this]
    · subst h2; simp [h1]
    · simp [h1, h2]

theorem confLoop_names (read : String → Option (List Nat)) (es : List Entry) (ls : List (String × Link)) :
    names (confLoop read ls es).1 = names ls := by
  induction es generalizing ls with
  | nil => rfl
  | cons c es ih =>
    simp only [confLoop]
    split
    · rfl
    · split
      · rfl
      · split
        · rw [ih, names_update]
        · exact names_update _ _ _

/-- What a loop without exception does, from any state. -/
theorem confLoop_ok (read : String → Option (List Nat)) (es : List Entry) (ls : List (String × Link))
    (h : (confLoop read ls es).2 = none) :
    (es.map (·.queue)).Nodup ∧
    (∀ c ∈ es, ∃ e d, lookup ls c.queue = some e ∧ e.configured = false ∧ read c.file = some d ∧
      lookup (confLoop read ls es).1 c.queue = some ⟨true, some d⟩) ∧
    (∀ n, n ∉ es.map (·.queue) → lookup (confLoop read ls es).1 n = lookup ls n) := by
  induction es generalizing ls with
  | nil => exact ⟨by simp, by simp, fun n _ => rfl⟩
  | cons c es ih =>
    simp only [confLoop] at h ⊢
    cases hl : lookup ls c.queue with
    | none => rw [hl] at h; cases h
    | some e =>
      rw [hl] at h
      dsimp only at h ⊢
      by_cases hc : e.configured = true
      · rw [if_pos hc] at h; cases h
      · rw [if_neg hc] at h ⊢
        have hc : e.configured = false := by simpa using hc
        cases hr : read c.file with
        | none => simp [linkConf, hc, hr] at h
        | some d =>
          have hlc : linkConf read e c.file = (⟨true, some d⟩, true) := by simp [linkConf, hc, hr]
          rw [hlc] at h ⊢
          simp only [if_true] at h ⊢
          obtain ⟨h1, h2, h3⟩ := ih _ h
          have hnot : c.queue ∉ es.map (·.queue) := by
            intro hm
            obtain ⟨c', hc', hq⟩ := List.mem_map.1 hm
            obtain ⟨e', d', g1, g2, -⟩ := h2 c' hc'
            rw [hq, lookup_update, if_pos rfl, hl] at g1
            simp only [Option.map_some, Option.some.injEq] at g1
            rw [← g1] at g2; cases g2
          refine ⟨by rw [List.map_cons, List.nodup_cons]; exact ⟨hnot, h1⟩, ?_, ?_⟩
          · intro c' hc'
            rcases List.mem_cons.1 hc' with rfl | hc'
            · refine ⟨e, d, hl, hc, hr, ?_⟩
              rw [h3 _ hnot, lookup_update, if_pos rfl, hl]; rfl
            · obtain ⟨e', d', g1, g2, g3, g4⟩ := h2 c' hc'
              refine ⟨e', d', ?_, g2, g3, g4⟩
              rw [lookup_update, if_neg] at g1
              · exact g1
              · intro hq; exact hnot (List.mem_map.2 ⟨c', hc', hq⟩)
          · intro n hn
            rw [List.map_cons, List.mem_cons, not_or] at hn
            rw [h3 n hn.2, lookup_update, if_neg hn.1]

/-- When the loop has no exception. -/
theorem confLoop_accepts (read : String → Option (List Nat)) (es : List Entry) (ls : List (String × Link))
    (hn : (es.map (·.queue)).Nodup)
    (h : ∀ c ∈ es, ∃ e, lookup ls c.queue = some e ∧ e.configured = false)
    (hr : ∀ c ∈ es, (read c.file).isSome) : (confLoop read ls es).2 = none := by
  induction es generalizing ls with
  | nil => rfl
  | cons c es ih =>
    obtain ⟨e, hl, hc⟩ := h c (by simp)
    obtain ⟨d, hd⟩ := Option.isSome_iff_exists.1 (hr c (by simp))
    rw [List.map_cons, List.nodup_cons] at hn
    simp only [confLoop, hl, hc, linkConf, hd, Bool.false_eq_true, if_false, if_true]
    apply ih _ hn.2
    · intro c' hc'
      obtain ⟨e', g1, g2⟩ := h c' (by simp [hc'])
      refine ⟨e', ?_, g2⟩
      rw [lookup_update, if_neg, g1]
      intro hq; exact hn.1 (List.mem_map.2 ⟨c', hc', hq⟩)
    · intro c' hc'; exact hr c' (by simp [hc'])

theorem lookup_of_mem {ls : List (String × Link)} (hn : (names ls).Nodup) {x : String × Link} (hx : x ∈ ls) :
    lookup ls x.1 = some x.2 := by
  induction ls with
  | nil => cases hx
  | cons y ls ih =>
    simp only [names, List.map_cons, List.nodup_cons] at hn
    rw [lookup_cons]
    rcases List.mem_cons.1 hx with rfl | hx
    · simp
    · rw [if_neg, ih hn.2 hx]
      intro he; exact hn.1 (List.mem_map.2 ⟨x, hx, he.symm⟩)

theorem mem_of_lookup {ls : List (String × Link)} {n : String} {e : Link} (h : lookup ls n = some e) :
    (n, e) ∈ ls := by
  simp only [lookup, Option.map_eq_some_iff] at h
  obtain ⟨x, hx, rfl⟩ := h
  have h1 := List.mem_of_find?_eq_some hx
  have h2 := List.find?_some hx
  simp only [beq_iff_eq] at h2
  rw [← h2]; exact h1

/-- A card of which no link is configured: after `init` or a scrap. -/
def Clean (c : Card) : Prop := c.configured = false ∧ ∀ x ∈ c.links, x.2.configured = false

/-- **C76 (partial)** A card that was just initialised or scrapped accepts a configuration exactly if it
names every link once and no other, with readable files; then each link replays the file named for it.
Missing: a configuration given after a rejected one or without a scrap. -/
theorem C76_conf_exact_partial (read : String → Option (List Nat)) (c : Card)
    (hn : (names c.links).Nodup) (hc : Clean c) (es : List Entry) :
    ((doConf read c es).2 = none ↔
      (es.map (·.queue)).Perm (names c.links) ∧ ∀ x ∈ es, (read x.file).isSome) ∧
    ((doConf read c es).2 = none →
      (doConf read c es).1.configured = true ∧ names (doConf read c es).1.links = names c.links ∧
      ∀ x ∈ es, lookup (doConf read c es).1.links x.queue = some ⟨true, read x.file⟩) := by
  have hlk : ∀ n e, lookup c.links n = some e → e.configured = false :=
    fun n e h => hc.2 _ (mem_of_lookup h)
  have hnm := confLoop_names read es c.links
  have hfin : (confLoop read c.links es).2 = none →
      ((doConf read c es).2 = none ↔ (confLoop read c.links es).1.all (fun x => x.2.configured) = true) ∧
      ((doConf read c es).2 = none → (doConf read c es).1 = ⟨(confLoop read c.links es).1, true⟩) := by
    intro h
    unfold doConf
    rw [hc.1, if_neg (by decide)]
    generalize confLoop read c.links es = r at h
    obtain ⟨ls, o⟩ := r
    dsimp only at h; subst h
    dsimp only
    cases ha : ls.all (fun x => x.2.configured) <;> simp
  have hno : (doConf read c es).2 = none → (confLoop read c.links es).2 = none := by
    unfold doConf
    rw [hc.1, if_neg (by decide)]
    generalize confLoop read c.links es = r
    obtain ⟨ls, _ | o⟩ := r
    · intro _; rfl
    · intro h; cases h
  refine ⟨⟨fun h => ?_, fun ⟨hp, hr⟩ => ?_⟩, fun h => ?_⟩
  · have h0 := hno h
    obtain ⟨h1, h2, h3⟩ := confLoop_ok read es c.links h0
    have hall := (hfin h0).1.1 h
    refine ⟨(List.perm_ext_iff_of_nodup h1 hn).2 fun n => ⟨fun hm => ?_, fun hm => ?_⟩, fun x hx => ?_⟩
    · obtain ⟨x, hx, rfl⟩ := List.mem_map.1 hm
      obtain ⟨e, d, g1, -⟩ := h2 x hx
      by_contra hcon
      rw [lookup_none.2 hcon] at g1; cases g1
    · by_contra hcon
      have e1 := h3 n hcon
      cases hl : lookup c.links n with
      | none => exact lookup_none.1 hl hm
      | some e =>
        rw [hl] at e1
        have := List.all_eq_true.1 hall _ (mem_of_lookup e1)
        rw [hlk n e hl] at this; cases this
    · obtain ⟨e, d, -, -, g3, -⟩ := h2 x hx
      rw [g3]; rfl
  · have h0 : (confLoop read c.links es).2 = none := by
      apply confLoop_accepts read es c.links (hp.nodup_iff.2 hn) _ hr
      intro x hx
      cases hl : lookup c.links x.queue with
      | none => exact absurd (hp.mem_iff.1 (List.mem_map.2 ⟨x, hx, rfl⟩)) (lookup_none.1 hl)
      | some e => exact ⟨e, rfl, hlk _ _ hl⟩
    rw [(hfin h0).1, List.all_eq_true]
    intro y hy
    obtain ⟨-, h2, -⟩ := confLoop_ok read es c.links h0
    have hmem : y.1 ∈ es.map (·.queue) := by
      rw [hp.mem_iff, ← hnm]; exact List.mem_map.2 ⟨y, hy, rfl⟩
    obtain ⟨x, hx, hxy⟩ := List.mem_map.1 hmem
    obtain ⟨e, d, -, -, -, g4⟩ := h2 x hx
    rw [hxy, lookup_of_mem (by rw [hnm]; exact hn) hy] at g4
    simp only [Option.some.injEq] at g4
    rw [g4]
  · have h0 := hno h
    rw [(hfin h0).2 h]
    obtain ⟨-, h2, -⟩ := confLoop_ok read es c.links h0
    refine ⟨rfl, hnm, fun x hx => ?_⟩
    obtain ⟨e, d, -, -, g3, g4⟩ := h2 x hx
    rw [g4, g3]

/-- Names are kept by every history. -/
theorem history_names (read : String → Option (List Nat)) (cs : List Cmd) (c : Card) :
    names (history read c cs).links = names c.links := by
  induction cs generalizing c with
  | nil => rfl
  | cons x cs ih =>
    cases x with
    | conf es =>
      rw [history, ih]
      unfold doConf
      split
      · rfl
      · have := confLoop_names read es c.links
        generalize confLoop read c.links es = r at this
        obtain ⟨ls, _ | o⟩ := r
        · dsimp only; split <;> exact this
        · exact this
    | scrap =>
      rw [history, ih]
      simp [doScrap, names, Function.comp_def]

/-- A card as `init` makes it is clean and its names differ. -/
theorem init_clean {qs : List (String × String)} {c : Card} (h : init qs = some c) :
    Clean c ∧ (names c.links).Nodup ∧ names c.links = qs.map (·.1) := by
  unfold init at h
  split at h
  · next hq =>
    simp only [Option.some.injEq] at h
    subst h
    refine ⟨⟨rfl, fun x hx => ?_⟩, ?_, ?_⟩
    · obtain ⟨q, -, rfl⟩ := List.mem_map.1 hx; rfl
    · simpa [names, Function.comp_def] using hq.1
    · simp [names, Function.comp_def]
  · cases h

/-- **C76 (scrap)** Whatever was commanded before, accepted or rejected, after a scrap the card accepts
exactly the complete configurations, and each link replays the file named for it. -/
theorem C76_scrap_restores (read : String → Option (List Nat)) (qs : List (String × String)) (c0 : Card)
    (h0 : init qs = some c0) (cs : List Cmd) (es : List Entry) :
    let c := doScrap (history read c0 cs)
    ((doConf read c es).2 = none ↔
      (es.map (·.queue)).Perm (qs.map (·.1)) ∧ ∀ x ∈ es, (read x.file).isSome) ∧
    ((doConf read c es).2 = none →
      ∀ x ∈ es, lookup (doConf read c es).1.links x.queue = some ⟨true, read x.file⟩) := by
  intro c
  obtain ⟨-, h2, h3⟩ := init_clean h0
  have e : names c.links = qs.map (·.1) := by
    rw [← h3, ← history_names read cs c0]
    simp [c, doScrap, names, Function.comp_def]
  have hc : Clean c := by
    refine ⟨rfl, fun x hx => ?_⟩
    obtain ⟨y, -, rfl⟩ := List.mem_map.1 hx
    rfl
  obtain ⟨g1, g2⟩ := C76_conf_exact_partial read c (by rw [e, ← h3]; exact h2) hc es
  rw [e] at g1
  exact ⟨g1, fun h => (g2 h).2.2⟩

/-- **C76 (rejected)** Whatever was commanded before: a configuration that is rejected leaves the card
unconfigured, and a card is configured only if every one of its links is. -/
theorem C76_configured_only_if_all (read : String → Option (List Nat)) (qs : List (String × String)) (c0 : Card)
    (h0 : init qs = some c0) (cs : List Cmd) :
    ((history read c0 cs).configured = true → ∀ x ∈ (history read c0 cs).links, x.2.configured = true) ∧
    ∀ es, (doConf read (history read c0 cs) es).2 ≠ none →
      (doConf read (history read c0 cs) es).1.configured = false := by
  have rej : ∀ (c : Card) es, (doConf read c es).2 ≠ none → (doConf read c es).1.configured = false := by
    intro c es
    unfold doConf
    split
    · intro h; exact absurd rfl h
    · generalize confLoop read c.links es = r
      obtain ⟨ls, _ | o⟩ := r
      · dsimp only; split
        · intro h; exact absurd rfl h
        · intro _; rfl
      · intro _; rfl
  refine ⟨?_, fun es => rej _ es⟩
  have step : ∀ (c : Card) (x : Cmd), (c.configured = true → ∀ x ∈ c.links, x.2.configured = true) →
      (history read c [x]).configured = true → ∀ y ∈ (history read c [x]).links, y.2.configured = true := by
    intro c x ih
    cases x with
    | scrap => intro h; cases h
    | conf es =>
      simp only [history]
      unfold doConf
      split
      · exact ih
      · generalize confLoop read c.links es = r
        obtain ⟨ls, _ | o⟩ := r
        · dsimp only; split
          · next ha => intro _ y hy; exact List.all_eq_true.1 ha y hy
          · intro h; cases h
        · intro h; cases h
  have all : ∀ (cs : List Cmd) (c : Card), (c.configured = true → ∀ x ∈ c.links, x.2.configured = true) →
      (history read c cs).configured = true → ∀ y ∈ (history read c cs).links, y.2.configured = true := by
    intro cs
    induction cs with
    | nil => intro c h; exact h
    | cons x cs ih =>
      intro c h
      have e : history read c (x :: cs) = history read (history read c [x]) cs := by cases x <;> rfl
      rw [e]
      exact ih _ (step c x h)
  refine all cs c0 fun h => ?_
  rw [(init_clean h0).1.1] at h; cases h

/-- A readable file system for examples. -/
def fs (f : String) : Option (List Nat) :=
  if f = "a" then some [1, 2] else if f = "b" then some [3, 4] else none

def twoLinks : Card := ⟨[("l0", ⟨false, none⟩), ("l1", ⟨false, none⟩)], false⟩

example : init [("l0", "wib_0"), ("l1", "wib_1")] = some twoLinks := by decide +kernel

example : Clean twoLinks ∧ (names twoLinks.links).Nodup ∧
    doConf fs twoLinks [⟨"l1", "a"⟩, ⟨"l0", "b"⟩] =
      (⟨[("l0", ⟨true, some [3, 4]⟩), ("l1", ⟨true, some [1, 2]⟩)], true⟩, none) := by
  refine ⟨⟨rfl, by decide⟩, by decide, by decide⟩

/-- A rejected configuration that names only one of two links. -/
example : (doConf fs twoLinks [⟨"l1", "a"⟩]).2 = some .notAll ∧
    (doConf fs twoLinks [⟨"l1", "a"⟩]).1.configured = false := by decide

/-- **C76 is false of the code (1)**: a configuration naming an unknown queue after a good entry is
rejected; the corrected, complete configuration is then rejected too. -/
theorem C76_corrected_refused_counterexample :
    let c := (doConf fs twoLinks [⟨"l0", "a"⟩, ⟨"l2", "b"⟩]).1
    (doConf fs twoLinks [⟨"l0", "a"⟩, ⟨"l2", "b"⟩]).2 = some .notFound ∧
    (doConf fs c [⟨"l0", "a"⟩, ⟨"l1", "b"⟩]).2 = some .twice := by decide

/-- **C76 is false of the code (2)**: after a rejected configuration one that names only half of the links
is accepted; the other link replays the file of the rejected one. -/
theorem C76_incomplete_accepted_counterexample :
    let c := (doConf fs twoLinks [⟨"l0", "a"⟩, ⟨"l2", "b"⟩]).1
    doConf fs c [⟨"l1", "b"⟩] =
      (⟨[("l0", ⟨true, some [1, 2]⟩), ("l1", ⟨true, some [3, 4]⟩)], true⟩, none) := by decide

/-- **C76 is false of the code (3)**: without a scrap in between, a second configuration is accepted (even
if it is wrong) and has no effect. -/
theorem C76_second_conf_counterexample (read : String → Option (List Nat)) (c : Card)
    (h : c.configured = true) (es : List Entry) : doConf read c es = (c, none) := by
  simp [doConf, h]

example : (doConf fs twoLinks [⟨"l1", "a"⟩, ⟨"l0", "b"⟩]).1.configured = true := by decide

/-- Starting an accepted card: each link replays its file in a cycle (C47), provided that holds at least
one payload. -/
theorem C76_started_replays (read : String → Option (List Nat)) (c : Card) (hn : (names c.links).Nodup)
    (hc : Clean c) (es : List Entry) (hok : (doConf read c es).2 = none) (x : Entry) (hx : x ∈ es)
    (d : List Nat) (hd : read x.file = some d) (sz tick t0 : Nat) (hs : 0 < sz) (hl : sz ≤ d.length)
    (ht : t0 < 18446744073709551616) (n : Nat) :
    ∃ e s, lookup (doConf read c es).1.links x.queue = some e ∧
      runLink sz tick [true] t0 n e = .ok s ∧ s.out = Emu.expected ⟨d, sz, tick, [true]⟩ t0 n := by
  have h := ((C76_conf_exact_partial read c hn hc es).2 hok).2.2 x hx
  obtain ⟨s, h1, h2⟩ := Emu.C47_cyclic_replay_partial ⟨d, sz, tick, [true]⟩ t0 hs hl (by simp) ht n
  exact ⟨_, s, h, by simp only [runLink, hd]; exact h1, h2⟩

example : runLink 2 25 [true] 1000 2 ⟨true, some [3, 4]⟩ =
    .ok ⟨1, 0, 1600, [([3, 4], 1000), ([3, 4], 1300)]⟩ := by rfl

/-- **Starting a card whose configuration was rejected** is not refused and dereferences the absent file
buffer of a link. -/
theorem C76_start_unconfigured_counterexample (sz tick t0 n : Nat) (drops : List Bool) :
    let c := (doConf fs twoLinks [⟨"l0", "a"⟩]).1
    (doConf fs twoLinks [⟨"l0", "a"⟩]).2 = some .notAll ∧
    (lookup c.links "l1").map (runLink sz tick drops t0 n) = some (.ub .nullDeref) := by
  refine ⟨by decide, ?_⟩
  have : lookup (doConf fs twoLinks [⟨"l0", "a"⟩]).1.links "l1" = some ⟨false, none⟩ := by decide
  simp only [this]
  rfl

end Verif.Card
