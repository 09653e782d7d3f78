import Verif.SkipListModel
/- Properties C10 (sorted latency buffer) and C52 (photon-detector cleanup). -/
namespace Verif.SkipList
variable {α : Type}

/-- Strictly increasing keys. -/
def StrictSorted (key : α → Nat) (l : List α) : Prop := l.Pairwise (fun a b => key a < key b)

theorem insert_spec (key : α → Nat) (a : α) (l : List α) (h : StrictSorted key l) :
    StrictSorted key (insert key a l).1 ∧
    ((insert key a l).2 = true ↔ ∀ b ∈ l, key b ≠ key a) ∧
    (∀ x, x ∈ (insert key a l).1 ↔ x ∈ l ∨ (x = a ∧ (insert key a l).2 = true)) := by
  induction l with
  | nil => simp [insert, StrictSorted]
  | cons b rest ih =>
    have hb := (List.pairwise_cons.1 h).1
    have hr := (List.pairwise_cons.1 h).2
    obtain ⟨i1, i2, i3⟩ := ih hr
    unfold insert
    by_cases h1 : key a < key b
    · simp only [h1, if_true]
      refine ⟨?_, ?_, ?_⟩
      · refine List.pairwise_cons.2 ⟨?_, h⟩
        intro x hx
        rcases List.mem_cons.1 hx with rfl | hx
        · exact h1
        · have := hb x hx; omega
      · simp only [true_iff]
        intro x hx
        rcases List.mem_cons.1 hx with rfl | hx
        · omega
        · have := hb x hx; omega
      · intro x; simp; grind
    · simp only [h1, if_false]
      by_cases h2 : key a = key b
      · simp only [h2, if_true]
        refine ⟨h, ?_, by simp⟩
        simp only [Bool.false_eq_true, false_iff]
        intro hc
        exact hc b (by simp) rfl
      · simp only [h2, if_false]
        refine ⟨?_, ?_, ?_⟩
        · refine List.pairwise_cons.2 ⟨?_, i1⟩
          intro x hx
          rcases (i3 x).1 hx with hx | ⟨rfl, -⟩
          · exact hb x hx
          · omega
        · rw [i2]
          constructor
          · intro hc x hx
            rcases List.mem_cons.1 hx with rfl | hx
            · exact fun e => h2 e.symm
            · exact hc x hx
          · intro hc x hx; exact hc x (by simp [hx])
        · intro x
          simp only [List.mem_cons, i3 x]
          grind

theorem insert_length (key : α → Nat) (a : α) (l : List α) :
    (insert key a l).1.length = l.length + if (insert key a l).2 = true then 1 else 0 := by
  induction l with
  | nil => simp [insert]
  | cons b rest ih =>
    unfold insert
    by_cases h1 : key a < key b
    · simp [h1]
    · by_cases h2 : key a = key b
      · simp [h2]
      · simp only [h1, h2, if_false, List.length_cons, ih]
        omega

theorem pop_eq_take (l : List α) (n : Nat) : pop l n = l.take (l.length - n) := by
  induction n generalizing l with
  | zero => simp [pop]
  | succ n ih =>
    rw [pop, ih, List.dropLast_eq_take, List.length_take, List.take_take]
    congr 1; omega

theorem step_sorted (key : α → Nat) (l : List α) (h : StrictSorted key l) (op : Op α) :
    StrictSorted key (step key l op) := by
  cases op with
  | write a => exact (insert_spec key a l h).1
  | read => exact h
  | pop n =>
    simp only [step, pop_eq_take]
    exact h.sublist (List.take_sublist _ _)
  | flush =>
    simp only [step, flush, pop_eq_take]
    exact h.sublist (List.take_sublist _ _)

theorem run_sorted (key : α → Nat) (l : List α) (h : StrictSorted key l) (ops : List (Op α)) :
    StrictSorted key (run key l ops) := by
  induction ops generalizing l with
  | nil => exact h
  | cons op ops ih => exact ih _ (step_sorted key l h op)

/-- **C10 (partial)** After every call sequence on an initially empty buffer: elements are in
strictly increasing timestamp order; a write is accepted iff its timestamp is not stored, and
then exactly that element is added; `front`/`back` are the oldest and newest; the lookup
returns the first element not older than the request (nothing iff all are older); a read gives
the oldest element; the occupancy is zero for an empty buffer and grows by one with each accepted
write; a flush empties the buffer.
Missing: `pop` discarding the oldest elements, which is false of the code (below). -/
theorem C10_sorted_buffer_partial (key : α → Nat) (ops : List (Op α)) :
    let l := run key [] ops
    StrictSorted key l ∧
    (∀ a, ((write key l a).2 = true ↔ ∀ b ∈ l, key b ≠ key a) ∧
      (∀ x, x ∈ (write key l a).1 ↔ x ∈ l ∨ (x = a ∧ (write key l a).2 = true))) ∧
    (∀ a, front l = some a → a ∈ l ∧ ∀ b ∈ l, key a ≤ key b) ∧
    (∀ a, back l = some a → a ∈ l ∧ ∀ b ∈ l, key b ≤ key a) ∧
    (∀ t a, lowerBound key l t = some a → a ∈ l ∧ t ≤ key a ∧
      ∀ b ∈ l, t ≤ key b → key a ≤ key b) ∧
    (∀ t, lowerBound key l t = none ↔ ∀ b ∈ l, key b < t) ∧
    (front l = none ↔ l = []) ∧ (back l = none ↔ l = []) ∧ (read l).2 = front l ∧
    (occupancy l = 0 ↔ l = []) ∧
    (∀ a, occupancy (write key l a).1 =
      occupancy l + if (write key l a).2 = true then 1 else 0) ∧
    flush l = [] := by
  intro l
  have hs : StrictSorted key l := run_sorted key [] List.Pairwise.nil ops
  refine ⟨hs, fun a => (insert_spec key a l hs).2, ?_, ?_, ?_, ?_, ?_, ?_, rfl, ?_, ?_, ?_⟩
  rotate_left 4
  · simp [front]
  · simp [back]
  · simp [occupancy]
  · intro a; exact insert_length key a l
  · simp [flush, occupancy, pop_eq_take]
  · intro a ha
    cases hl : l with
    | nil => rw [hl] at ha; simp [front] at ha
    | cons b rest =>
      rw [hl] at ha hs; simp [front] at ha; subst ha
      refine ⟨by simp, ?_⟩
      intro x hx
      rcases List.mem_cons.1 hx with rfl | hx
      · exact Nat.le_refl _
      · exact Nat.le_of_lt ((List.pairwise_cons.1 hs).1 x hx)
  · intro a ha
    obtain ⟨pre, hpre⟩ := List.getLast?_eq_some_iff.1 ha
    refine ⟨by rw [hpre]; simp, ?_⟩
    intro x hx
    rw [hpre] at hx hs
    rcases List.mem_append.1 hx with hx | hx
    · exact Nat.le_of_lt ((List.pairwise_append.1 hs).2.2 x hx a (by simp))
    · simp at hx; subst hx; exact Nat.le_refl _
  · intro t a ha
    have hmem := List.mem_of_find?_eq_some ha
    have hp := List.find?_some ha
    simp at hp
    refine ⟨hmem, hp, ?_⟩
    intro b hb htb
    rw [lowerBound, List.find?_eq_some_iff_append] at ha
    obtain ⟨-, as, bs, e, hall⟩ := ha
    rw [e] at hb hs
    rcases List.mem_append.1 hb with hb | hb
    · have := hall b hb; simp at this; omega
    · rcases List.mem_cons.1 hb with rfl | hb
      · exact Nat.le_refl _
      · exact Nat.le_of_lt ((List.pairwise_cons.1 (List.pairwise_append.1 hs).2.1).1 b hb)
  · intro t
    simp [lowerBound, List.find?_eq_none]

/-- Non-vacuity: out-of-order arrivals, a duplicate, and a lookup. -/
example : run id [] [.write 30, .write 10, .write 20, .write 10] = [10, 20, 30] := by decide

/-- **C10 is false of the code**: `pop(k)` always removes the `k` *newest* elements (and keeps the
oldest ones), for every contents. -/
theorem C10_pop_discards_newest (l : List α) (k : Nat) :
    pop l k = l.take (l.length - k) ∧ (k < l.length → (pop l k).head? = l.head?) := by
  refine ⟨pop_eq_take l k, ?_⟩
  intro hk
  rw [pop_eq_take]
  cases l with
  | nil => simp at hk
  | cons a l =>
    have : (a :: l).length - k = ((a :: l).length - k - 1) + 1 := by omega
    rw [this]; simp

example : pop [10, 20, 30] 2 = [10] := by decide

/-- Concrete witness against "pop discards the oldest". -/
theorem C10_pop_oldest_counterexample :
    pop (run id [] [.write 10, .write 20, .write 30]) 1 = [10, 20] := by decide

/-- **C10 (2)**: `read` returns the oldest element but leaves it in the buffer, so the same
element is returned again. -/
theorem C10_read_does_not_remove (l : List α) : (read l).1 = l := rfl

example : read [10, 20, 30] = ([10, 20, 30], some 10) := by decide

/-- Timestamps span of a stored list. -/
def span (key : α → Nat) (l : List α) : Nat :=
  match l.getLast?, l.head? with
  | some t, some h => key t - key h
  | _, _ => 0

theorem daphneLoop_spec (key : α → Nat) (m : Nat) (hm : 0 < m) (tl : α) :
    ∀ (l : List α), l.getLast? = some tl → 2 ≤ l.length →
      ∃ r removed, daphneLoop key m (key tl) l = .ok r ∧ l = removed ++ r ∧ removed ≠ [] ∧
        r.getLast? = some tl ∧ (∀ h, r.head? = some h → key tl - key h < m) ∧
        (∀ x ∈ removed.tail, m ≤ key tl - key x) := by
  intro l
  induction l with
  | nil => intro h; simp at h
  | cons a l ih =>
    intro hl h2
    cases l with
    | nil => simp at h2
    | cons b rest =>
      have hl' : (b :: rest).getLast? = some tl := by simpa using hl
      unfold daphneLoop
      by_cases hc : key tl - key b ≥ m
      · simp only [hc, if_true]
        have h2' : 2 ≤ (b :: rest).length := by
          cases rest with
          | nil => simp at hl'; subst hl'; omega
          | cons c cs => simp
        obtain ⟨r, rm, e, hap, hne, hlast, hhead, htl⟩ := ih hl' h2'
        refine ⟨r, a :: rm, e, by rw [hap]; simp, by simp, hlast, hhead, ?_⟩
        intro x hx
        simp only [List.tail_cons] at hx
        cases rm with
        | nil => simp at hx
        | cons y ys =>
          have hy : y = b := by simp at hap; exact hap.1.symm
          rcases List.mem_cons.1 hx with rfl | hx
          · subst hy; exact hc
          · exact htl x hx
      · simp only [hc, if_false]
        exact ⟨b :: rest, [a], rfl, rfl, by simp, hl', by simp; omega, by simp⟩

/-- **C52** For every sorted contents and every positive limit the cleanup terminates without
undefined behaviour; it removes only a prefix of oldest elements, keeps the newest element,
and afterwards the stored time span does not exceed the limit. It does nothing when the span
was within the limit, and it never removes an element (other than the first) that is within
the limit of the newest. -/
theorem C52_daphne_cleanup (key : α → Nat) (m : Nat) (hm : 0 < m) (l : List α)
    (hs : StrictSorted key l) :
    ∃ r removed, daphneCleanup key m l = .ok r ∧ l = removed ++ r ∧
      r.getLast? = l.getLast? ∧ span key r ≤ m ∧
      (span key l ≤ m → r = l) ∧
      (∀ tl, l.getLast? = some tl → ∀ x ∈ removed.tail, m ≤ key tl - key x) ∧
      StrictSorted key r := by
  cases hl : l with
  | nil => exact ⟨[], [], by simp [daphneCleanup], rfl, rfl, by simp [span], by simp, by simp, List.Pairwise.nil⟩
  | cons a rest =>
    obtain ⟨tl, htl⟩ : ∃ tl, l.getLast? = some tl := by
      rw [hl]; exact ⟨_, List.getLast?_eq_some_getLast (by simp)⟩
    rw [← hl]
    have hh : l.head? = some a := by rw [hl]; rfl
    by_cases hc : key tl - key a > m
    · have h2 : 2 ≤ l.length := by
        rw [hl] at htl ⊢
        cases rest with
        | nil => simp at htl; subst htl; omega
        | cons b bs => simp
      obtain ⟨r, rm, e, hap, hne, hlast, hhead, ht⟩ := daphneLoop_spec key m hm tl l htl h2
      refine ⟨r, rm, by simp [daphneCleanup, htl, hh, hc, e], hap, by rw [hlast, htl], ?_, ?_, ?_, ?_⟩
      · cases hr : r.head? with
        | none => simp [span, hlast, hr]
        | some h => have := hhead h hr; simp [span, hlast, hr]; omega
      · intro hsp; simp [span, htl, hh] at hsp; omega
      · intro tl' h' x hx
        rw [htl] at h'; injection h' with h'; subst h'
        exact ht x hx
      · rw [hap] at hs; exact (List.pairwise_append.1 hs).2.1
    · refine ⟨l, [], by simp [daphneCleanup, htl, hh, hc], rfl, rfl, ?_, by simp, by simp, hs⟩
      simp [span, htl, hh]; omega

/-- **C52 (the limit)** With the limit of the code the time span kept is at most 10,000,000 ticks, and
contents spanning at most that are kept whole. -/
theorem C52_limit (key : α → Nat) (l : List α) (hs : StrictSorted key l) :
    ∃ r, daphneCleanup key daphneMaxTsDiff l = .ok r ∧ span key r ≤ 10000000 ∧
      (span key l ≤ 10000000 → r = l) := by
  obtain ⟨r, _, h1, -, -, h4, h5, -⟩ := C52_daphne_cleanup key daphneMaxTsDiff (by decide) l hs
  exact ⟨r, h1, h4, h5⟩

/-- Non-vacuity: three photon-detector elements, 12e6 ticks apart, limit 1e7. -/
example : StrictSorted id [0, 5000000, 12000000, 14000000] ∧
    daphneCleanup id daphneMaxTsDiff [0, 5000000, 12000000, 14000000] =
      .ok [5000000, 12000000, 14000000] := by
  constructor
  · simp [StrictSorted]
  · simp [daphneCleanup, daphneLoop, daphneMaxTsDiff]

end Verif.SkipList
