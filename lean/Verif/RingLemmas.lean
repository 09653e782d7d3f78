import Verif.RingSpec
/- Helper lemmas for the ring buffer. -/
namespace Verif.Ring
variable {α : Type u}

theorem Repr.wrlt {q : Ring α} {l : List α} (h : Repr q l) : q.wr < q.size := by
  have := h.wreq; have := h.rdlt; have := h.len
  simp only [slotIdx] at *
  split at * <;> omega

theorem Repr.rd_eq_wr {q : Ring α} {l : List α} (h : Repr q l) : q.rd = q.wr ↔ l = [] := by
  have h1 := h.wreq; have h2 := h.rdlt; have h3 := h.len
  rw [← List.length_eq_zero_iff]
  simp only [slotIdx] at h1
  split at h1 <;> omega

theorem Repr.full_iff {q : Ring α} {l : List α} (h : Repr q l) :
    nextIdx q.size q.wr = q.rd ↔ l.length = q.size - 1 := by
  have h1 := h.wreq; have h2 := h.rdlt; have h3 := h.len; have h4 := h.two
  simp only [slotIdx, nextIdx] at *
  split at h1 <;> split <;> omega

theorem Repr.occ {q : Ring α} {l : List α} (h : Repr q l) : q.occupancy = l.length := by
  have h1 := h.wreq; have h2 := h.rdlt; have h3 := h.len
  simp only [Ring.occupancy, occIdx, slotIdx] at *
  split at h1 <;> split <;> omega

theorem repr_init (n : Nat) (hn : 2 ≤ n) : Repr (Ring.init α n) [] where
  two := hn
  rdlt := by simp [Ring.init]; omega
  len := by simp [Ring.init]; omega
  wreq := by simp [Ring.init, slotIdx]
  live := by simp
  dead := by intros; rfl

theorem slotIdx_lt {size rd k : Nat} (h1 : rd < size) (h2 : k < size) :
    slotIdx size rd k < size := by
  simp only [slotIdx]; split <;> omega

theorem slotIdx_inj {size rd k j : Nat} (h2 : k < size) (h3 : j < size)
    (e : slotIdx size rd k = slotIdx size rd j) : k = j := by
  simp only [slotIdx] at e
  split at e <;> split at e <;> omega

theorem write_ok {q : Ring α} {l : List α} (h : Repr q l) (a : α)
    (hf : l.length < q.size - 1) :
    ∃ q', q.write a = .ok (q', true) ∧ Repr q' (l ++ [a]) ∧ q'.size = q.size ∧
      q'.rd = q.rd ∧ q'.overflow = q.overflow ∧
      (∀ i, i ≠ q.wr → q'.slots i = q.slots i) := by
  have hne : nextIdx q.size q.wr ≠ q.rd := by
    intro e; have := h.full_iff.1 e; omega
  have hd : q.slots q.wr = none := by
    apply h.dead _ h.wrlt
    intro k hk e
    rw [h.wreq] at e
    have := slotIdx_inj (rd := q.rd) h.len (by have := h.len; omega) e
    omega
  have hw := h.wrlt
  refine ⟨{ q with wr := nextIdx q.size q.wr,
                   slots := fun j => if j = q.wr then some a else q.slots j },
    by simp [Ring.write, hne, Ring.construct, hw, hd], ?_, rfl, rfl, rfl, ?_⟩
  · have h1 := h.wreq; have h2 := h.rdlt; have h3 := h.len
    constructor
    · exact h.two
    · exact h.rdlt
    · simp; omega
    · simp only [List.length_append, List.length_cons, List.length_nil]
      simp only [slotIdx, nextIdx] at *
      split at h1 <;> split <;> split <;> omega
    · intro k b hk
      simp only
      rcases Nat.lt_trichotomy k l.length with hlt | heq | hgt
      · rw [List.getElem?_append_left hlt] at hk
        have : slotIdx q.size q.rd k ≠ q.wr := by
          intro e; rw [h1] at e
          have := slotIdx_inj (rd := q.rd) (by omega) h3 e; omega
        simp [this, h.live k b hk]
      · subst heq
        simp at hk
        simp [← h1, hk]
      · rw [List.getElem?_append_right (by omega)] at hk
        have : k - l.length ≠ 0 := by omega
        rw [List.getElem?_eq_none (by simp; omega)] at hk
        simp at hk
    · intro i hi hk
      simp only
      have hiw : i ≠ q.wr := by
        rw [h1]; exact hk _ (by simp)
      simp only [hiw, if_false]
      apply h.dead i hi
      intro k hk'
      exact hk k (by simp; omega)
  · intro i hi; simp [hi]

theorem write_full {q : Ring α} {l : List α} (h : Repr q l) (a : α)
    (hf : ¬ l.length < q.size - 1) :
    q.write a = .ok ({ q with overflow := q.overflow + 1 }, false) := by
  have : nextIdx q.size q.wr = q.rd := by
    apply h.full_iff.2; have := h.len; omega
  simp [Ring.write, this]

theorem repr_overflow {q : Ring α} {l : List α} (h : Repr q l) (n : Nat) :
    Repr { q with overflow := n } l := ⟨h.1, h.2, h.3, h.4, h.5, h.6⟩

theorem load_rd {q : Ring α} {a : α} {l : List α} (h : Repr q (a :: l)) :
    q.load q.rd = .ok a := by
  have h2 := h.rdlt
  have := h.live 0 a (by simp)
  simp only [slotIdx, Nat.add_zero, h2, if_true] at this
  simp [Ring.load, h2, this]

theorem popFront_ok {q : Ring α} {a : α} {l : List α} (h : Repr q (a :: l)) :
    ∃ q', q.popFront = .ok q' ∧ Repr q' l ∧ q'.size = q.size ∧ q'.overflow = q.overflow ∧
      q' = { q with rd := nextIdx q.size q.rd,
                    slots := fun j => if j = q.rd then none else q.slots j } := by
  have h2 := h.rdlt
  have hl := h.live 0 a (by simp)
  simp only [slotIdx, Nat.add_zero, h2, if_true] at hl
  refine ⟨{ q with rd := nextIdx q.size q.rd,
                   slots := fun j => if j = q.rd then none else q.slots j },
    by simp [Ring.popFront, Ring.destroy, h2, hl], ?_, rfl, rfl, rfl⟩
  have h1 := h.wreq; have h3 := h.len; have h4 := h.two
  simp only [List.length_cons] at h1 h3
  constructor
  · exact h4
  · simp only [nextIdx]; split <;> omega
  · simp; omega
  · simp only [slotIdx, nextIdx] at *
    split at h1 <;> split <;> split <;> omega
  · intro k b hk
    have hkl : k < l.length := by
      rcases Nat.lt_or_ge k l.length with h' | h'
      · exact h'
      · rw [List.getElem?_eq_none h'] at hk; simp at hk
    have := h.live (k+1) b (by simpa using hk)
    have e : slotIdx q.size (nextIdx q.size q.rd) k = slotIdx q.size q.rd (k+1) := by
      simp only [slotIdx, nextIdx]; split <;> split <;> split <;> omega
    have ne : slotIdx q.size q.rd (k+1) ≠ q.rd := by
      simp only [slotIdx]; split <;> omega
    simp [e, ne, this]
  · intro i hi hk
    simp only
    split
    · rfl
    · rename_i hir
      apply h.dead i hi
      intro k hkk
      cases k with
      | zero => simp only [slotIdx, Nat.add_zero, h2, if_true]; exact hir
      | succ k =>
        have e : slotIdx q.size (nextIdx q.size q.rd) k = slotIdx q.size q.rd (k+1) := by
          simp only [List.length_cons] at hkk
          simp only [slotIdx, nextIdx]; split <;> split <;> split <;> omega
        rw [← e]
        exact hk k (by simpa using hkk)

theorem read_ok {q : Ring α} {a : α} {l : List α} (h : Repr q (a :: l)) :
    ∃ q', q.read = .ok (q', some a) ∧ Repr q' l ∧ q'.size = q.size ∧
      q'.overflow = q.overflow := by
  obtain ⟨q', h1, h2, h3, h4, -⟩ := popFront_ok h
  refine ⟨q', ?_, h2, h3, h4⟩
  have hne : q.rd ≠ q.wr := by
    intro e; have := h.rd_eq_wr.1 e; simp at this
  simp only [Ring.popFront] at h1
  simp only [Ring.read, hne, if_false, load_rd h, Outcome.bind_ok]
  cases hd : q.destroy q.rd with
  | ok r => rw [hd] at h1; simp at h1 ⊢; exact h1
  | ub w => rw [hd] at h1; simp at h1
  | throws w => rw [hd] at h1; simp at h1

theorem read_empty {q : Ring α} (h : Repr q []) : q.read = .ok (q, none) := by
  have := h.rd_eq_wr.2 rfl
  simp [Ring.read, this]

theorem pop_ok {q : Ring α} {l : List α} (h : Repr q l) (x : Nat) (hx : x ≤ l.length) :
    ∃ q', q.pop x = .ok q' ∧ Repr q' (l.drop x) ∧ q'.size = q.size ∧
      q'.overflow = q.overflow := by
  induction x generalizing q l with
  | zero => exact ⟨q, rfl, by simpa using h, rfl, rfl⟩
  | succ x ih =>
    cases l with
    | nil => simp at hx
    | cons a l =>
      obtain ⟨q1, e1, r1, s1, o1, -⟩ := popFront_ok h
      obtain ⟨q2, e2, r2, s2, o2⟩ := ih r1 (by simpa using hx)
      exact ⟨q2, by simp [Ring.pop, e1, e2], by simpa using r2, by rw [s2, s1], by rw [o2, o1]⟩

theorem flush_ok {q : Ring α} {l : List α} (h : Repr q l) :
    ∃ q', q.flush = .ok q' ∧ Repr q' [] ∧ q'.size = q.size ∧ q'.overflow = q.overflow := by
  obtain ⟨q', e, r, s, o⟩ := pop_ok h l.length (Nat.le_refl _)
  exact ⟨q', by rw [Ring.flush, h.occ, e], by simpa using r, s, o⟩

theorem repr_unique {q : Ring α} {l l' : List α} (h : Repr q l) (h' : Repr q l') : l = l' := by
  have hl : l.length = l'.length := by rw [← h.occ, ← h'.occ]
  apply List.ext_getElem? 
  intro k
  rcases Nat.lt_or_ge k l.length with hk | hk
  · have e1 := h.live k _ (List.getElem?_eq_getElem hk)
    have e2 := h'.live k _ (List.getElem?_eq_getElem (hl ▸ hk))
    rw [List.getElem?_eq_getElem hk, List.getElem?_eq_getElem (hl ▸ hk)]
    rw [e1] at e2; exact e2
  · rw [List.getElem?_eq_none hk, List.getElem?_eq_none (by omega)]

/-- Simulation of one call. -/
theorem step_sim {q : Ring α} {f : Fifo α} (h : Repr q f.items) (hc : f.cap = q.size - 1)
    (ho : f.rejected = q.overflow) (op : Op α)
    (hv : match op with | .pop x => x ≤ f.items.length | _ => True) :
    ∃ q', q.step op = .ok (q', (f.step op).2) ∧ Repr q' (f.step op).1.items ∧
      q'.size = q.size ∧ (f.step op).1.cap = f.cap ∧ (f.step op).1.rejected = q'.overflow := by
  cases op with
  | write a =>
    by_cases hf : f.items.length < f.cap
    · obtain ⟨q', e, r, s, -, o, -⟩ := write_ok h a (by omega)
      exact ⟨q', by simp [Ring.step, e, Fifo.step, hf], by simpa [Fifo.step, hf] using r, s,
        by simp [Fifo.step, hf], by simp [Fifo.step, hf, o, ho]⟩
    · have e := write_full h a (by omega)
      refine ⟨{ q with overflow := q.overflow + 1 }, by simp [Ring.step, e, Fifo.step, hf], ?_, rfl,
        by simp [Fifo.step, hf], ?_⟩
      · simpa [Fifo.step, hf] using repr_overflow h _
      · simp [Fifo.step, hf, ho]
  | read =>
    rcases hi : f.items with _ | ⟨a, rest⟩
    · rw [hi] at h
      exact ⟨q, by simp [Ring.step, read_empty h, Fifo.step, hi], by simpa [Fifo.step, hi] using h,
        rfl, by simp [Fifo.step, hi], by simp [Fifo.step, hi, ho]⟩
    · rw [hi] at h
      obtain ⟨q', e, r, s, o⟩ := read_ok h
      exact ⟨q', by simp [Ring.step, e, Fifo.step, hi], by simpa [Fifo.step, hi] using r, s,
        by simp [Fifo.step, hi], by simp [Fifo.step, hi, o, ho]⟩
  | pop x =>
    obtain ⟨q', e, r, s, o⟩ := pop_ok h x hv
    exact ⟨q', by simp [Ring.step, e, Fifo.step], by simpa [Fifo.step] using r, s,
      by simp [Fifo.step], by simp [Fifo.step, o, ho]⟩
  | flush =>
    obtain ⟨q', e, r, s, o⟩ := flush_ok h
    exact ⟨q', by simp [Ring.step, e, Fifo.step], by simpa [Fifo.step] using r, s,
      by simp [Fifo.step], by simp [Fifo.step, o, ho]⟩

theorem run_sim {q : Ring α} {f : Fifo α} (h : Repr q f.items) (hc : f.cap = q.size - 1)
    (ho : f.rejected = q.overflow) (ops : List (Op α)) (hv : f.Valid ops) :
    ∃ q', q.run ops = .ok (q', (f.run ops).2) ∧ Repr q' (f.run ops).1.items ∧
      q'.size = q.size ∧ (f.run ops).1.rejected = q'.overflow := by
  induction ops generalizing q f with
  | nil => exact ⟨q, rfl, h, rfl, ho⟩
  | cons op ops ih =>
    obtain ⟨hv1, hv2⟩ := hv
    obtain ⟨q1, e1, r1, s1, c1, o1⟩ := step_sim h hc ho op hv1
    obtain ⟨q2, e2, r2, s2, o2⟩ := ih r1 (by rw [c1, hc, s1]) o1 hv2
    exact ⟨q2, by simp [Ring.run, e1, e2, Fifo.run], r2, by rw [s2, s1], o2⟩

/- Iterators -/

theorem Repr.occupied {q : Ring α} {l : List α} (h : Repr q l) (hs : q.size ≤ endIdx) (i : Nat) (hi : i < q.size) :
    q.good i = true ↔ ∃ k, k < l.length ∧ i = slotIdx q.size q.rd k := by
  have h1 := h.wreq; have h2 := h.rdlt; have h3 := h.len
  have : i ≠ endIdx := by omega
  simp only [Ring.good, bne_iff_ne, this, ne_eq, not_false_eq_true, Bool.and_eq_true, Bool.or_eq_true,
    decide_eq_true_eq, true_and]
  constructor
  · intro hg
    refine ⟨if q.rd ≤ i then i - q.rd else i + q.size - q.rd, ?_, ?_⟩
    · simp only [slotIdx] at h1; split at h1 <;> split <;> omega
    · simp only [slotIdx]; split <;> split <;> omega
  · rintro ⟨k, hk, rfl⟩
    simp only [slotIdx] at *
    split at h1 <;> split <;> omega

theorem not_good_end (q : Ring α) : q.good endIdx = false := by simp [Ring.good]

theorem inc_slot {q : Ring α} {l : List α} (h : Repr q l) (hs : q.size ≤ endIdx) (k : Nat)
    (hk : k < l.length) :
    q.inc (slotIdx q.size q.rd k) =
      if k + 1 < l.length then slotIdx q.size q.rd (k+1) else endIdx := by
  have h2 := h.rdlt; have h3 := h.len
  have hlt := slotIdx_lt h2 (show k < q.size by omega)
  have hg : q.good (slotIdx q.size q.rd k) = true := (h.occupied hs _ hlt).2 ⟨k, hk, rfl⟩
  have e : (if slotIdx q.size q.rd k + 1 = q.size then 0 else slotIdx q.size q.rd k + 1)
      = slotIdx q.size q.rd (k+1) := by
    simp only [slotIdx] at *; split <;> split <;> split <;> omega
  have hlt' := slotIdx_lt h2 (show k + 1 < q.size by omega)
  simp only [Ring.inc, hg, if_true, e]
  by_cases hk' : k + 1 < l.length
  · have : q.good (slotIdx q.size q.rd (k+1)) = true := (h.occupied hs _ hlt').2 ⟨k+1, hk', rfl⟩
    simp [this, hk']
  · have : q.good (slotIdx q.size q.rd (k+1)) = false := by
      rw [← Bool.not_eq_true, h.occupied hs _ hlt']
      rintro ⟨j, hj, e⟩
      have := slotIdx_inj (rd := q.rd) (show k+1 < q.size by omega) (by omega) e
      omega
    simp [this, hk']

theorem inc_end (q : Ring α) : q.inc endIdx = endIdx := by
  simp [Ring.inc, not_good_end]

/-- The iterator position after reaching logical position `k`. -/
def pos (q : Ring α) (l : List α) (k : Nat) : Nat :=
  if k < l.length then slotIdx q.size q.rd k else endIdx

theorem begin_pos {q : Ring α} {l : List α} (h : Repr q l) : q.begin = pos q l 0 := by
  have := h.rd_eq_wr
  cases l with
  | nil => simp [pos, Ring.begin, this.2 rfl]
  | cons a l =>
    have hne : q.rd ≠ q.wr := fun e => by simpa using this.1 e
    have := h.rdlt
    simp [pos, Ring.begin, hne, slotIdx, this]

theorem inc_pos {q : Ring α} {l : List α} (h : Repr q l) (hs : q.size ≤ endIdx) (k : Nat) :
    q.inc (pos q l k) = pos q l (k+1) := by
  by_cases hk : k < l.length
  · simp only [pos, hk, if_true, inc_slot h hs k hk]
  · have : ¬ (k + 1 < l.length) := by omega
    simp [pos, hk, this, inc_end]

theorem incBy_pos {q : Ring α} {l : List α} (h : Repr q l) (hs : q.size ≤ endIdx) (j k : Nat) :
    q.incBy j (pos q l k) = pos q l (k + j) := by
  induction j generalizing k with
  | zero => rfl
  | succ j ih => rw [Ring.incBy, inc_pos h hs, ih]; congr 1; omega

theorem deref_pos {q : Ring α} {l : List α} (h : Repr q l) (k : Nat) (a : α) (hk : l[k]? = some a) :
    q.deref (pos q l k) = .ok a := by
  have hlt : k < l.length := by
    rcases Nat.lt_or_ge k l.length with h' | h'
    · exact h'
    · rw [List.getElem?_eq_none h'] at hk; simp at hk
  have h2 := h.rdlt; have h3 := h.len
  have := h.live k a hk
  have hs := slotIdx_lt h2 (show k < q.size by omega)
  simp [Ring.deref, pos, hlt, Ring.load, hs, this]

theorem pos_ne_end {q : Ring α} {l : List α} (h : Repr q l) (hs : q.size ≤ endIdx) (k : Nat)
    (hk : k < l.length) : pos q l k ≠ endIdx := by
  have h2 := h.rdlt; have h3 := h.len
  have := slotIdx_lt h2 (show k < q.size by omega)
  simp only [pos, hk, if_true]; omega

theorem visit_pos {q : Ring α} {l : List α} (h : Repr q l) (hs : q.size ≤ endIdx) (fuel k : Nat)
    (hf : l.length < fuel + k) : q.visit fuel (pos q l k) = .ok (l.drop k, endIdx) := by
  induction fuel generalizing k with
  | zero =>
    have : ¬ k < l.length := by omega
    simp [Ring.visit, pos, this]
    omega
  | succ f ih =>
    by_cases hk : k < l.length
    · have hne := pos_ne_end h hs k hk
      have hd := deref_pos h k l[k] (List.getElem?_eq_getElem hk)
      have := ih (k+1) (by omega)
      simp [Ring.visit, hne, hd, inc_pos h hs, this]
    · have e : l.drop k = [] := by simp; omega
      simp [Ring.visit, pos, hk, e]

end Verif.Ring
