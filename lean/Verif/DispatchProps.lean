import Verif.DispatchModel
/-
C51: the data-link handler, the fake card and the recorder choose the detector data type from the queue
instance name. Specification: keyword occurrence as `Occurs`; agreement as equality of the accepted types.
-/
namespace Verif.Dispatch

/-- Specification: `key` occurs somewhere in `s`. -/
def Occurs (key s : List Char) : Prop := ∃ a b, s = a ++ key ++ b

theorem has_iff (key s : List Char) : has key s = true ↔ Occurs key s := by
  induction s with
  | nil =>
    simp only [has, List.isPrefixOf_iff_prefix, Occurs]
    constructor
    · rintro ⟨b, hb⟩; exact ⟨[], b, by simpa using hb.symm⟩
    · rintro ⟨a, b, h⟩
      have : key = [] := by
        have := congrArg List.length h; simp at this
        exact List.eq_nil_of_length_eq_zero (by omega)
      subst this; exact List.nil_prefix
  | cons c cs ih =>
    simp only [has, Bool.or_eq_true, List.isPrefixOf_iff_prefix, ih, Occurs]
    constructor
    · rintro (⟨b, hb⟩ | ⟨a, b, h⟩)
      · exact ⟨[], b, by simpa using hb.symm⟩
      · exact ⟨c :: a, b, by simp [h]⟩
    · rintro ⟨a, b, h⟩
      cases a with
      | nil => left; exact ⟨b, by simpa using h.symm⟩
      | cons x a =>
        right; simp at h; exact ⟨a, b, by simp [h.2]⟩

theorem occurs_trans {k l s : List Char} (h1 : Occurs k l) (h2 : Occurs l s) : Occurs k s := by
  obtain ⟨a, b, rfl⟩ := h1
  obtain ⟨c, d, rfl⟩ := h2
  exact ⟨c ++ a, b ++ d, by simp⟩

/-- Specification: the three modules agree on `s` whenever they accept it. -/
def Agree (s : List Char) : Prop :=
  (∀ a b, (readoutOne s).map Prod.fst = some a → emulator s = some b → a = b) ∧
  (∀ a b, (readoutOne s).map Prod.fst = some a → recorder s = some b → a = b) ∧
  (∀ a b, emulator s = some a → recorder s = some b → a = b)

theorem wib2_wib : Occurs "wib".toList "wib2".toList := ⟨[], ['2'], by decide⟩
theorem pdsq_pds : Occurs "pds".toList "pds_queue".toList := ⟨[], "_queue".toList, by decide⟩
theorem pdsl_pds : Occurs "pds".toList "pds_list".toList := ⟨[], "_list".toList, by decide⟩
theorem swtp_tp : Occurs "tp".toList "sw_tp".toList := ⟨"sw_".toList, [], by decide⟩
theorem rawtp_tp : Occurs "tp".toList "raw_tp".toList := ⟨"raw_".toList, [], by decide⟩

theorem has_mono {k l s : List Char} (h : Occurs k l) (hl : has l s = true) : has k s = true :=
  (has_iff _ _).2 (occurs_trans h ((has_iff _ _).1 hl))

/-- Every name that contains `wib` is accepted by all three modules with the same type, and that type is
`wib2` exactly if the name contains `wib2`, whatever else the name contains. -/
theorem C51_wib_names (s : List Char) (h : Occurs "wib".toList s) :
    (Occurs "wib2".toList s →
      (readoutOne s).map Prod.fst = some .wib2 ∧ emulator s = some .wib2 ∧ recorder s = some .wib2) ∧
    (¬ Occurs "wib2".toList s →
      (readoutOne s).map Prod.fst = some .wib ∧ emulator s = some .wib ∧ recorder s = some .wib) := by
  have hw := (has_iff _ _).2 h
  constructor
  · intro h2
    have := (has_iff _ _).2 h2
    simp only [readoutOne, emulator, recorder, this, hw]; simp
  · intro h2
    have : has "wib2".toList s = false := by
      cases hh : has "wib2".toList s with
      | false => rfl
      | true => exact absurd ((has_iff _ _).1 hh) h2
    simp only [readoutOne, emulator, recorder, this, hw]; simp

example : Occurs "wib".toList "output_wib2_ssp_1".toList :=
  (has_iff _ _).1 (by decide)

/-- C51 for the names in which no two detector families meet: names with `wib`, or names with at most one of
`pds`, `tp`, `ssp`, `pacman` and without `sw_tp`. Missing: the other names, on which the modules disagree (see the
counterexamples). -/
theorem C51_agree_partial (s : List Char)
    (h : Occurs "wib".toList s ∨
      ¬ Occurs "sw_tp".toList s ∧
      ¬ (Occurs "pds".toList s ∧ Occurs "tp".toList s) ∧
      ¬ (Occurs "pds".toList s ∧ Occurs "ssp".toList s) ∧
      ¬ (Occurs "pds".toList s ∧ Occurs "pacman".toList s) ∧
      ¬ (Occurs "tp".toList s ∧ Occurs "ssp".toList s) ∧
      ¬ (Occurs "tp".toList s ∧ Occurs "pacman".toList s) ∧
      ¬ (Occurs "ssp".toList s ∧ Occurs "pacman".toList s)) : Agree s := by
  rcases h with h | h
  · by_cases h2 : Occurs "wib2".toList s
    · obtain ⟨a, b, c⟩ := (C51_wib_names s h).1 h2
      simp only [Agree, a, b, c]; grind
    · obtain ⟨a, b, c⟩ := (C51_wib_names s h).2 h2
      simp only [Agree, a, b, c]; grind
  · simp only [← has_iff] at h
    have a1 := @has_mono _ _ s wib2_wib
    have a2 := @has_mono _ _ s pdsq_pds
    have a3 := @has_mono _ _ s pdsl_pds
    have a4 := @has_mono _ _ s swtp_tp
    have a5 := @has_mono _ _ s rawtp_tp
    simp only [Agree, readoutOne, emulator, recorder]
    generalize has "wib".toList s = w at *
    generalize has "wib2".toList s = w2 at *
    generalize has "pds".toList s = p at *
    generalize has "pds_queue".toList s = pq at *
    generalize has "pds_list".toList s = pl at *
    generalize has "tp".toList s = t at *
    generalize has "sw_tp".toList s = st at *
    generalize has "raw_tp".toList s = rt at *
    generalize has "ssp".toList s = ss at *
    generalize has "pacman".toList s = pc at *
    cases w <;> cases w2 <;> cases p <;> cases t <;> cases ss <;> cases pc <;> simp_all <;>
      cases pq <;> cases pl <;> cases st <;> cases rt <;> simp_all

/-- A name for which the second alternative holds and two modules accept. -/
example : ¬ Occurs "sw_tp".toList "input_raw_tp_7".toList ∧
    readoutOne "input_raw_tp_7".toList = some (.rawTp, .binarySearch) ∧
    emulator "input_raw_tp_7".toList = some .rawTp :=
  ⟨by rw [← has_iff]; decide, by decide, by decide⟩

/-- The fake card sends raw trigger primitives on a `sw_tp` queue; the handler of that queue expects software
trigger primitives. -/
theorem C51_sw_tp_counterexample : ¬ Agree "sw_tp_queue".toList := by
  intro h
  have := h.1 .swTp .rawTp (by decide) (by decide)
  exact absurd this (by decide)

/-- A name with two keywords on which all three pairs of modules disagree or reject differently: the
handler chooses SSP, the fake card photon detector data. -/
theorem C51_mixed_counterexample :
    (readoutOne "pds_ssp".toList).map Prod.fst = some .ssp ∧ emulator "pds_ssp".toList = some .daphne ∧
    recorder "pds_ssp".toList = some .daphne ∧
    emulator "pacman_tp".toList = some .rawTp ∧ recorder "pacman_tp".toList = some .pacman := by
  decide

/-- A plain photon detector name is accepted by the fake card and the recorder but has no handler. -/
theorem C51_pds_without_suffix :
    readoutOne "pds_0".toList = none ∧ emulator "pds_0".toList = some .daphne ∧
    recorder "pds_0".toList = some .daphne := by decide

example : (readoutOne "pds_queue_0".toList).isSome = true ∧ (readoutOne "pds_list_0".toList).isSome = true := by
  decide

/-- The handler is chosen by the first recognised `raw_input` queue; every other queue is irrelevant. -/
theorem C51_first_raw_input (pre post : List (List Char × List Char)) (inst : List Char)
    (r : DataType × BufType) (hr : readoutOne inst = some r)
    (hpre : ∀ q ∈ pre, q.1 = "raw_input".toList → readoutOne q.2 = none) :
    createReadout (pre ++ ("raw_input".toList, inst) :: post) = some r := by
  induction pre with
  | nil => simp only [List.nil_append, createReadout, if_true, hr]
  | cons q pre ih =>
    obtain ⟨n, i⟩ := q
    have ih' := ih (fun q hq => hpre q (List.mem_cons_of_mem _ hq))
    simp only [List.cons_append, createReadout]
    split
    · rename_i hn
      rw [hpre (n, i) (by simp) hn]; exact ih'
    · exact ih'

example : createReadout [("timesync".toList, "ssp".toList), ("raw_input".toList, "varsize".toList),
    ("raw_input".toList, "pds_list_3".toList), ("raw_input".toList, "wib".toList)] =
    some (.daphne, .skipList) := by decide

end Verif.Dispatch
