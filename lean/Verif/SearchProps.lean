import Verif.SearchModel
import Verif.RingLemmas
/- Properties C07, C08, C09: timestamp lookup. -/
namespace Verif.Search
open Verif.Ring
variable {α : Type}

/-- Stored in non-decreasing key order. -/
def Sorted (key : α → Nat) (l : List α) : Prop :=
  ∀ (i j : Nat) (a b : α), i ≤ j → l[i]? = some a → l[j]? = some b → key a ≤ key b

/-- Specification of the lookup on the stored list: position `k` holds the newest element whose
key does not exceed `t`. -/
def Covers (key : α → Nat) (l : List α) (t k : Nat) : Prop :=
  (∃ a, l[k]? = some a ∧ key a ≤ t) ∧ ∀ j b, k < j → l[j]? = some b → t < key b

theorem getElem?_lt {l : List α} {k : Nat} {a : α} (h : l[k]? = some a) : k < l.length := by
  rcases Nat.lt_or_ge k l.length with h' | h'
  · exact h'
  · rw [List.getElem?_eq_none h'] at h; simp at h

theorem load_slot {q : Ring α} {l : List α} (h : Repr q l) {k : Nat} (hk : k < l.length) :
    q.load (slotIdx q.size q.rd k) = .ok l[k] := by
  have hl := h.live k _ (List.getElem?_eq_getElem hk)
  have := h.len
  simp [Ring.load, slotIdx_lt h.rdlt (show k < q.size by omega), hl]

theorem loop_correct {q : Ring α} {l : List α} (h : Repr q l) (key : α → Nat) (t : Nat) :
    ∀ (fuel lo hi : Nat) (hlo : lo ≤ hi) (hhi : hi < l.length),
      hi - lo < fuel → key l[lo] ≤ t → (∀ j b, hi < j → l[j]? = some b → t < key b) →
      Sorted key l →
      ∃ k, k < l.length ∧ searchLoop q key t fuel (slotIdx q.size q.rd lo) (slotIdx q.size q.rd hi) =
          .ok (some (slotIdx q.size q.rd k)) ∧ Covers key l t k := by
  intro fuel
  induction fuel with
  | zero => intro lo hi _ _ hf; omega
  | succ fuel ih =>
    intro lo hi hlo hhi hf hk hgt hs
    have h2 := h.rdlt; have h3 := h.len
    have hdiff : (if slotIdx q.size q.rd lo ≤ slotIdx q.size q.rd hi
        then slotIdx q.size q.rd hi - slotIdx q.size q.rd lo
        else q.size + slotIdx q.size q.rd hi - slotIdx q.size q.rd lo) = hi - lo := by
      simp only [slotIdx]; split <;> split <;> split <;> omega
    let mid := lo + (hi - lo + 1) / 2
    have hmid : mid ≤ hi := by simp only [mid]; omega
    have hm : (if slotIdx q.size q.rd lo + (hi - lo + 1) / 2 ≥ q.size
        then slotIdx q.size q.rd lo + (hi - lo + 1) / 2 - q.size
        else slotIdx q.size q.rd lo + (hi - lo + 1) / 2) = slotIdx q.size q.rd mid := by
      simp only [slotIdx, mid]; split <;> split <;> split <;> omega
    simp only [searchLoop, hdiff, hm, load_slot h (show mid < l.length by omega), Outcome.bind_ok]
    by_cases hd : hi - lo = 0
    · have e : mid = lo := by simp only [mid]; omega
      refine ⟨mid, by omega, by simp [hd], ⟨l[mid], List.getElem?_eq_getElem _, ?_⟩, ?_⟩
      · simpa only [e] using hk
      · intro j b hj; exact hgt j b (by omega)
    · simp only [hd, if_false]
      by_cases ht : t < key l[mid]
      · simp only [ht, if_true]
        have hml : lo < mid := by simp only [mid]; omega
        have e : (if slotIdx q.size q.rd mid ≠ 0 then slotIdx q.size q.rd mid - 1 else q.size - 1)
            = slotIdx q.size q.rd (mid - 1) := by
          clear hdiff hm
          simp only [slotIdx]; split <;> split <;> (try split) <;> simp_all <;> omega
        rw [e]
        refine ih lo (mid - 1) (by omega) (by omega) (by omega) hk ?_ hs
        intro j b hj hb
        have := hs mid j l[mid] b (by omega) (List.getElem?_eq_getElem _) hb
        omega
      · simp only [ht, if_false]
        exact ih mid hi hmid hhi (by simp only [mid]; omega) (by omega) hgt hs

/-- **C07** On a buffer storing `l` in non-decreasing timestamp order the binary search finishes
within as many rounds as there are stored elements, without undefined behaviour, and returns
`end()` iff the buffer is empty or the request precedes the oldest element; otherwise it
returns the position of the newest element not later than the request. -/
theorem C07_binary_search (key : α → Nat) (q : Ring α) (l : List α) (h : Repr q l)
    (hs : Sorted key l) (t fuel : Nat) (hf : l.length ≤ fuel) :
    ((l = [] ∨ ∃ a, l[0]? = some a ∧ t < key a) ∧
        lowerBound q key t fuel = .ok (some endIdx)) ∨
    ((∃ a, l[0]? = some a ∧ key a ≤ t) ∧
      ∃ k, lowerBound q key t fuel = .ok (some (slotIdx q.size q.rd k)) ∧ Covers key l t k) := by
  cases l with
  | nil =>
    left
    exact ⟨Or.inl rfl, by simp [lowerBound, h.rd_eq_wr.2 rfl]⟩
  | cons a l =>
    have hne : q.rd ≠ q.wr := fun e => by simpa using h.rd_eq_wr.1 e
    have h2 := h.rdlt; have h1 := h.wreq; have h3 := h.len
    by_cases ht : t < key a
    · left
      exact ⟨Or.inr ⟨a, by simp, ht⟩, by simp [lowerBound, hne, load_rd h, ht]⟩
    · right
      refine ⟨⟨a, by simp, by omega⟩, ?_⟩
      have e : (if q.wr = 0 then q.size - 1 else q.wr - 1) =
          slotIdx q.size q.rd ((a :: l).length - 1) := by
        have := h.two
        simp only [slotIdx, List.length_cons] at *; split at h1 <;> split <;> split <;> omega
      have e0 : q.rd = slotIdx q.size q.rd 0 := by simp [slotIdx, h2]
      obtain ⟨k, -, hk, hc⟩ := loop_correct h key t fuel 0 ((a :: l).length - 1) (by omega)
        (by simp) (by simp at hf ⊢; omega) (by simp; omega)
        (by intro j b hj hb; have := getElem?_lt hb; simp at hj this; omega) hs
      refine ⟨k, ?_, hc⟩
      simp only [lowerBound, hne, if_false, load_rd h, Outcome.bind_ok, ht, e]
      rw [← e0] at hk
      exact hk

/-- Non-vacuity for C07: a wrapped buffer with keys 10, 20 (ring positions 1, 2, 0). -/
example : ∃ q : Ring Nat, Repr q [10, 20, 30] ∧ q.rd = 2 ∧ Sorted id [10, 20, 30] := by
  refine ⟨⟨4, fun i => if i = 2 then some 10 else if i = 3 then some 20 else
    if i = 0 then some 30 else none, 2, 1, 0⟩, ?_, rfl, ?_⟩
  · constructor
    · decide
    · decide
    · decide
    · decide
    · intro k a hk
      match k with
      | 0 => simp at hk; simp [slotIdx, hk]
      | 1 => simp at hk; simp [slotIdx, hk]
      | 2 => simp at hk; simp [slotIdx, hk]
      | k + 3 => simp at hk
    · intro i hi hk
      have h0 := hk 0 (by decide); have h1 := hk 1 (by decide); have h2 := hk 2 (by decide)
      simp [slotIdx] at h0 h1 h2
      simp [h0, h1, h2]
  · intro i j a b hij ha hb
    have hi := getElem?_lt ha; have hj := getElem?_lt hb
    match i, j with
    | 0, 0 => simp_all
    | 0, 1 => simp at ha hb; subst ha; subst hb; decide
    | 0, 2 => simp at ha hb; subst ha; subst hb; decide
    | 1, 1 => simp_all
    | 1, 2 => simp at ha hb; subst ha; subst hb; decide
    | 2, 2 => simp_all
    | 1, 0 => omega
    | 2, 0 => omega
    | 2, 1 => omega
    | _, j + 3 => simp at hj; omega
    | i + 3, _ => simp at hi; omega

/-- Gap-free contents: consecutive elements are exactly `step` apart. -/
def GapFree (key : α → Nat) (step : Nat) (l : List α) : Prop :=
  ∀ k a b, l[k]? = some a → l[k+1]? = some b → key b = key a + step

theorem GapFree.at {key : α → Nat} {step : Nat} {l : List α} (h : GapFree key step l) {a : α}
    (h0 : l[0]? = some a) : ∀ k b, l[k]? = some b → key b = key a + k * step := by
  intro k
  induction k with
  | zero => intro b hb; rw [h0] at hb; injection hb with e; simp [e]
  | succ k ih =>
    intro b hb
    have hk := getElem?_lt hb
    have hk' : k < l.length := by omega
    rw [h k l[k] b (List.getElem?_eq_getElem hk') hb, ih l[k] (List.getElem?_eq_getElem hk'),
      Nat.add_mul]
    omega

theorem GapFree.sorted {key : α → Nat} {step : Nat} {l : List α} (h : GapFree key step l) :
    Sorted key l := by
  intro i j a b hij ha hb
  have hi := getElem?_lt ha
  have h0 : l[0]? = some l[0] := List.getElem?_eq_getElem (by omega)
  rw [h.at h0 i a ha, h.at h0 j b hb]
  exact Nat.add_le_add_left (Nat.mul_le_mul_right _ hij) _

theorem covers_gapfree {key : α → Nat} {step : Nat} {l : List α} (hst : 0 < step)
    (h : GapFree key step l) {a : α} (h0 : l[0]? = some a) {t : Nat} (h1 : key a ≤ t)
    (h2 : t < key a + l.length * step) : Covers key l t ((t - key a) / step) := by
  have hlt : (t - key a) / step < l.length := by
    rw [Nat.div_lt_iff_lt_mul hst]; omega
  refine ⟨⟨l[(t - key a) / step], List.getElem?_eq_getElem hlt, ?_⟩, ?_⟩
  · rw [h.at h0 _ _ (List.getElem?_eq_getElem hlt)]
    have := Nat.div_mul_le_self (t - key a) step; omega
  · intro j b hj hb
    rw [h.at h0 j b hb]
    have : (t - key a) / step + 1 ≤ j := hj
    have h3 := Nat.mul_le_mul_right step this
    rw [Nat.add_mul, Nat.one_mul] at h3
    have := Nat.lt_div_mul_add (a := t - key a) hst
    omega

theorem covers_unique {key : α → Nat} {l : List α} {t k j : Nat} (h1 : Covers key l t k)
    (h2 : Covers key l t j) : k = j := by
  obtain ⟨⟨a, ha, ha'⟩, h1⟩ := h1
  obtain ⟨⟨b, hb, hb'⟩, h2⟩ := h2
  rcases Nat.lt_trichotomy k j with h | h | h
  · have := h1 j b h hb; omega
  · exact h
  · have := h2 k a h ha; omega

/-- The constant-time lookup on gap-free contents, spelled out. -/
theorem fixed_eval {q : Ring α} {l : List α} (h : Repr q l) (key : α → Nat) (tick nf : Nat)
    (ht : 0 < tick) (hnf : 0 < nf) (hs : q.size < 2147483648)
    {a : α} (h0 : l[0]? = some a)
    (hov : key a + l.length * tick * nf < 18446744073709551616) (t : Nat)
    (h1 : key a ≤ t) (h2 : t ≤ key a + l.length * tick * nf) :
    fixedLowerBound q key tick nf t = .ok (slotIdx q.size q.rd ((t - key a) / (tick * nf))) := by
  cases l with
  | nil => simp at h0
  | cons c l =>
    simp at h0; subst h0
    have hpos : 0 < tick * nf := Nat.mul_pos ht hnf
    have hoff : (t - key c) / (tick * nf) ≤ (c :: l).length := by
      apply Nat.div_le_of_le_mul
      rw [Nat.mul_comm, ← Nat.mul_assoc]; omega
    have h3 := h.len; have h4 := h.rdlt
    have e1 : u64 (key c + q.occupancy * tick * nf) = key c + (c :: l).length * tick * nf := by
      rw [h.occ, u64, Nat.mod_eq_of_lt hov]
    have e2 : (t - key c) / tick / nf = (t - key c) / (tick * nf) := Nat.div_div_eq_div_mul _ _ _
    have e3 : u32 ((t - key c) / (tick * nf)) = (t - key c) / (tick * nf) :=
      Nat.mod_eq_of_lt (by omega)
    have e4 : u32 (q.rd + (t - key c) / (tick * nf)) = q.rd + (t - key c) / (tick * nf) :=
      Nat.mod_eq_of_lt (by omega)
    simp only [fixedLowerBound, load_rd h, Outcome.bind_ok, e1, e2, e3, e4]
    rw [if_neg (by omega), if_neg (by omega), if_neg (by omega)]
    congr 1
    simp only [slotIdx]
    split <;> split <;> omega

/-- **C08** On gap-free contents (elements exactly `nf * tick` apart) the constant-time lookup
needs no search: for every timestamp in the buffered span it returns exactly the element the
binary search returns (the one covering the timestamp); one tick past the span it returns an
iterator that is not good; outside it returns `end()`. Preconditions: positive tick and frame
count, buffer size up to 2^31, span not wrapping the 64-bit clock. -/
theorem C08_fixed_rate_exact (key : α → Nat) (q : Ring α) (l : List α) (h : Repr q l)
    (tick nf : Nat) (ht : 0 < tick) (hnf : 0 < nf) (hs : q.size < 2147483648)
    (hg : GapFree key (tick * nf) l) (a : α) (h0 : l[0]? = some a)
    (hov : key a + l.length * tick * nf < 18446744073709551616) (t : Nat) :
    (key a ≤ t → t < key a + l.length * (tick * nf) →
      ∃ k, Covers key l t k ∧
        fixedLowerBound q key tick nf t = .ok (slotIdx q.size q.rd k) ∧
        lowerBound q key t l.length = .ok (some (slotIdx q.size q.rd k))) ∧
    (t = key a + l.length * (tick * nf) →
      ∃ i, fixedLowerBound q key tick nf t = .ok i ∧ q.good i = false) ∧
    (t < key a ∨ key a + l.length * (tick * nf) < t →
      fixedLowerBound q key tick nf t = .ok endIdx) := by
  have hpos : 0 < tick * nf := Nat.mul_pos ht hnf
  have hassoc : l.length * tick * nf = l.length * (tick * nf) := Nat.mul_assoc _ _ _
  refine ⟨?_, ?_, ?_⟩
  · intro h1 h2
    have hc := covers_gapfree hpos hg h0 h1 h2
    refine ⟨_, hc, fixed_eval h key tick nf ht hnf hs h0 hov t h1 (by omega), ?_⟩
    rcases C07_binary_search key q l h hg.sorted t l.length (Nat.le_refl _) with ⟨hb, -⟩ | ⟨-, k, e, hc'⟩
    · rcases hb with rfl | ⟨b, hb, hlt⟩
      · simp at h0
      · rw [h0] at hb; injection hb with e; subst e; omega
    · rw [covers_unique hc hc']; exact e
  · intro h1
    refine ⟨_, fixed_eval h key tick nf ht hnf hs h0 hov t (by omega) (by omega), ?_⟩
    have e : (t - key a) / (tick * nf) = l.length := by
      rw [h1, Nat.add_sub_cancel_left, Nat.mul_div_cancel _ hpos]
    rw [e, ← Bool.not_eq_true, h.occupied (by simp [endIdx]; omega) _ (slotIdx_lt h.rdlt h.len)]
    rintro ⟨k, hk, e'⟩
    have := slotIdx_inj (rd := q.rd) h.len (by have := h.len; omega) e'
    omega
  · intro h1
    cases l with
    | nil => simp at h0
    | cons c l =>
      simp at h0; subst h0
      have e1 : u64 (key c + q.occupancy * tick * nf) = key c + (c :: l).length * tick * nf := by
        rw [h.occ, u64, Nat.mod_eq_of_lt hov]
      simp only [fixedLowerBound, load_rd h, Outcome.bind_ok, e1]
      rw [if_pos (by omega)]

/-- A size-4 buffer holding three elements, oldest in slot 2 (wrapped). -/
def demo (a b c : Nat) : Ring Nat :=
  ⟨4, fun i => if i = 2 then some a else if i = 3 then some b else
    if i = 0 then some c else none, 2, 1, 0⟩

theorem demo_repr (a b c : Nat) : Repr (demo a b c) [a, b, c] := by
  constructor
  · simp [demo]
  · simp [demo]
  · simp [demo]
  · simp [demo, slotIdx]
  · intro k x hk
    match k with
    | 0 => simp at hk; simp [demo, slotIdx, hk]
    | 1 => simp at hk; simp [demo, slotIdx, hk]
    | 2 => simp at hk; simp [demo, slotIdx, hk]
    | k + 3 => simp at hk
  · intro i hi hk
    have h0 := hk 0 (by simp); have h1 := hk 1 (by simp); have h2 := hk 2 (by simp)
    simp [demo, slotIdx] at h0 h1 h2
    simp [demo, h0, h1, h2]

/-- Non-vacuity for C08: WIB parameters (tick 25, 12 frames) on a wrapped gap-free buffer. -/
example : GapFree id (25 * 12) [1000, 1300, 1600] ∧ Repr (demo 1000 1300 1600) [1000, 1300, 1600] := by
  refine ⟨?_, demo_repr _ _ _⟩
  intro k a b ha hb
  have := getElem?_lt hb
  match k with
  | 0 => simp at ha hb; subst ha; subst hb; rfl
  | 1 => simp at ha hb; subst ha; subst hb; rfl
  | k + 2 => simp at this; omega

/-- **C09 is false of the code**: with a gap in the stored data (1000, 2200 instead of 1300, 2500)
and no error flag, the constant-time lookup of timestamp 1300 returns the element starting at
2200, which does not cover it; the binary search returns the right one. -/
theorem C09_gap_counterexample :
    Repr (demo 1000 2200 2500) [1000, 2200, 2500] ∧
    fixedRateLowerBound (demo 1000 2200 2500) id 25 12 1300 false 3 = .ok (some 3) ∧
    (demo 1000 2200 2500).load 3 = .ok 2200 ∧
    fixedRateLowerBound (demo 1000 2200 2500) id 25 12 1300 true 3 = .ok (some 2) ∧
    (demo 1000 2200 2500).load 2 = .ok 1000 := by
  refine ⟨demo_repr _ _ _, ?_, rfl, ?_, rfl⟩ <;> decide

/-- **C09 (2)**: on an empty buffer the constant-time lookup reads a slot that holds no
element. -/
theorem C09_empty_counterexample (key : α → Nat) (q : Ring α) (h : Repr q []) (tick nf t : Nat) :
    fixedLowerBound q key tick nf t = .ub .deadObject := by
  have := h.dead q.rd h.rdlt (by simp)
  simp [fixedLowerBound, Ring.load, h.rdlt, this]

/-- **C09 (partial)** With the error flag set the lookup is the binary search, hence exact on any
sorted contents; without the flag it is exact on gap-free contents (any good result covers the
request). Missing: unflagged gaps and the empty buffer, where the claim is false. -/
theorem C09_lookup_sound_partial (key : α → Nat) (q : Ring α) (l : List α) (h : Repr q l)
    (tick nf : Nat) (ht : 0 < tick) (hnf : 0 < nf) (hs : q.size < 2147483648)
    (hsort : Sorted key l) (withErrors : Bool)
    (hg : withErrors = false → GapFree key (tick * nf) l)
    (a : α) (h0 : l[0]? = some a)
    (hov : key a + l.length * tick * nf < 18446744073709551616) (t i : Nat)
    (hi : fixedRateLowerBound q key tick nf t withErrors l.length = .ok (some i))
    (hgood : q.good i = true) :
    ∃ k, i = slotIdx q.size q.rd k ∧ Covers key l t k := by
  cases withErrors with
  | true =>
    simp only [fixedRateLowerBound, if_true] at hi
    rcases C07_binary_search key q l h hsort t l.length (Nat.le_refl _) with ⟨-, e⟩ | ⟨-, k, e, hc⟩
    · rw [e] at hi; injection hi with hi; injection hi with hi
      subst hi; rw [not_good_end] at hgood; simp at hgood
    · rw [e] at hi; injection hi with hi; injection hi with hi
      exact ⟨k, hi.symm, hc⟩
  | false =>
    obtain ⟨h1, h2, h3⟩ := C08_fixed_rate_exact key q l h tick nf ht hnf hs (hg rfl) a h0 hov t
    simp only [fixedRateLowerBound] at hi
    have hcases : (key a ≤ t ∧ t < key a + l.length * (tick * nf)) ∨
        t = key a + l.length * (tick * nf) ∨
        (t < key a ∨ key a + l.length * (tick * nf) < t) := by omega
    rcases hcases with ⟨c1, c2⟩ | c | c
    · obtain ⟨k, hc, e, -⟩ := h1 c1 c2
      rw [e] at hi; simp at hi
      exact ⟨k, hi.symm, hc⟩
    · obtain ⟨j, e, hj⟩ := h2 c
      rw [e] at hi; simp at hi
      rw [← hi, hj] at hgood; simp at hgood
    · rw [h3 c] at hi; simp at hi
      rw [← hi, not_good_end] at hgood; simp at hgood

/-- Error flag set, with a gap: the lookup of 1400 gives the second payload, which covers it. -/
example : Sorted id [1000, 1300, 2500] ∧
    fixedRateLowerBound (demo 1000 1300 2500) id 25 12 1400 true 3 = .ok (some 3) ∧
    (demo 1000 1300 2500).good 3 = true := by
  refine ⟨?_, by decide, by decide⟩
  intro i j a b hij ha hb
  match i, j with
  | 0, 0 => simp at ha hb; simp; omega
  | 0, 1 => simp at ha hb; simp; omega
  | 0, 2 => simp at ha hb; simp; omega
  | 1, 1 => simp at ha hb; simp; omega
  | 1, 2 => simp at ha hb; simp; omega
  | 2, 2 => simp at ha hb; simp; omega
  | i + 3, _ => simp at ha
  | _, j + 3 => simp at hb

/-- **C07 (width of the indices)** For buffers of up to 2^31 elements the 32-bit arithmetic of the search never wraps in a
way that matters: the loop does what the loop on natural numbers does. -/
theorem C07_width (key : α → Nat) (q : Ring α) (t : Nat) (hsz : q.size < 2147483648) (fuel s e : Nat)
    (hs : s < q.size) (he : e < q.size) : searchLoop32 q key t fuel s e = searchLoop q key t fuel s e := by
  induction fuel generalizing s e with
  | zero => rfl
  | succ fuel ih =>
    have hd : (if s ≤ e then u32 (e + (4294967296 - s)) else u32 (u32 (q.size + e) + (4294967296 - s))) =
        (if s ≤ e then e - s else q.size + e - s) := by
      unfold u32; split <;> omega
    have hlt : (if s ≤ e then e - s else q.size + e - s) < q.size := by split <;> omega
    simp only [searchLoop32, searchLoop, hd]
    generalize (if s ≤ e then e - s else q.size + e - s) = diff at hlt
    have hm : u32 (s + u32 (diff + 1) / 2) = s + (diff + 1) / 2 := by
      unfold u32; omega
    rw [hm]
    have hml : (if s + (diff + 1) / 2 ≥ q.size then s + (diff + 1) / 2 - q.size else s + (diff + 1) / 2) < q.size := by
      split <;> omega
    generalize (if s + (diff + 1) / 2 ≥ q.size then s + (diff + 1) / 2 - q.size else s + (diff + 1) / 2) = m at hml
    have h1 := ih s (if m ≠ 0 then m - 1 else q.size - 1) hs (by split <;> omega)
    have h2 := ih m e hml he
    rw [h1, h2]

example : searchLoop32 (demo 1000 1300 2500) id 1400 5 (demo 1000 1300 2500).rd
    (if (demo 1000 1300 2500).wr = 0 then (demo 1000 1300 2500).size - 1 else (demo 1000 1300 2500).wr - 1) =
    .ok (some 3) := by decide +kernel

end Verif.Search
