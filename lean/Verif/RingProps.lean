import Verif.RingLemmas
/-
Property theorems for the ring latency buffer: C01, C02, C03, C06.
-/
namespace Verif.Ring
variable {α : Type u}

/-- The empty FIFO of capacity `n - 1`. -/
def Fifo.empty (α : Type u) (n : Nat) : Fifo α := ⟨n - 1, [], 0⟩

/-- **C01** For every size `n ≥ 2` and every call sequence (with `pop(x)` within the contents)
the ring never hits undefined behaviour, returns exactly what a bounded FIFO of capacity
`n - 1` returns, ends up storing exactly the FIFO's elements in order, and its overflow
counter is the number of rejected writes. -/
theorem C01_ring_is_bounded_fifo (n : Nat) (hn : 2 ≤ n) (ops : List (Op α))
    (hv : (Fifo.empty α n).Valid ops) :
    ∃ q, (Ring.init α n).run ops = .ok (q, ((Fifo.empty α n).run ops).2) ∧
      Repr q ((Fifo.empty α n).run ops).1.items ∧ q.size = n ∧
      q.overflow = ((Fifo.empty α n).run ops).1.rejected := by
  obtain ⟨q, e, r, s, o⟩ := run_sim (f := Fifo.empty α n) (repr_init n hn) rfl rfl ops hv
  exact ⟨q, e, r, s, o.symm⟩

/-- Non-vacuity for C01: a size-3 buffer, overflowed once, wrapped, read and popped. -/
example : (Fifo.empty Nat 3).Valid
    [.write 1, .write 2, .write 3, .read, .write 4, .pop 2, .read, .write 5, .flush] := by
  simp [Fifo.Valid, Fifo.step, Fifo.empty]

example : ((Fifo.empty Nat 3).run
    [.write 1, .write 2, .write 3, .read, .write 4]).1.items = [2, 4] := by
  simp [Fifo.run, Fifo.step, Fifo.empty]

/-- A buffer state reached from a fresh buffer of size `n` by a valid call sequence whose
FIFO specification stores `l`. -/
def ReachedWith (n : Nat) (l : List α) (q : Ring α) : Prop :=
  ∃ ops : List (Op α), (Fifo.empty α n).Valid ops ∧
    ((Fifo.empty α n).run ops).1.items = l ∧ ∃ rs, (Ring.init α n).run ops = .ok (q, rs)

theorem ReachedWith.repr {n : Nat} {l : List α} {q : Ring α} (hn : 2 ≤ n)
    (h : ReachedWith n l q) : Repr q l ∧ q.size = n := by
  obtain ⟨ops, hv, rfl, rs, hr⟩ := h
  obtain ⟨q', e, r, s, -⟩ := C01_ring_is_bounded_fifo n hn ops hv
  rw [e] at hr
  injection hr with h1
  injection h1 with h1 h2
  subst h1
  exact ⟨r, s⟩

/-- **C02** In every reachable state the queries report the stored elements:
occupancy is their number, empty/full are none / `n-1`, `front()`/`back()` point to the
oldest / newest (null iff empty), capacity is `n-1`. -/
theorem C02_queries_agree (n : Nat) (hn : 2 ≤ n) (l : List α) (q : Ring α)
    (h : ReachedWith n l q) :
    q.occupancy = l.length ∧ l.length ≤ n - 1 ∧
    (q.isEmpty = true ↔ l = []) ∧ (q.isFull = true ↔ l.length = n - 1) ∧
    q.capacity = n - 1 ∧
    (q.front = none ↔ l = []) ∧ (q.back = none ↔ l = []) ∧
    (∀ a, l.head? = some a → q.derefPtr q.front = .ok a) ∧
    (∀ a, l.getLast? = some a → q.derefPtr q.back = .ok a) := by
  obtain ⟨r, s⟩ := h.repr hn
  have hlen := r.len
  refine ⟨r.occ, by omega, ?_, ?_, by rw [Ring.capacity, s], ?_, ?_, ?_, ?_⟩
  · simp [Ring.isEmpty, r.rd_eq_wr]
  · rw [← s, ← r.full_iff]; simp [Ring.isFull]
  · rw [← r.rd_eq_wr]; simp [Ring.front]
  · rw [← r.rd_eq_wr]; simp only [Ring.back]
    split
    · rename_i e; simp [e]
    · rename_i e; simp; exact fun e' => e e'.symm
  · intro a ha
    cases l with
    | nil => simp at ha
    | cons b l =>
      simp at ha; subst ha
      have hne : q.rd ≠ q.wr := fun e => by simpa using r.rd_eq_wr.1 e
      simp [Ring.front, hne, Ring.derefPtr, load_rd r]
  · intro a ha
    rw [List.getLast?_eq_getElem?] at ha
    have hlive := r.live _ a ha
    have hne : l ≠ [] := by rintro rfl; simp at ha
    have hpos := List.length_pos_iff.2 hne
    have hne' : q.wr ≠ q.rd := fun e => hne (r.rd_eq_wr.1 e.symm)
    have h1 := r.wreq; have h2 := r.rdlt
    have e : (if q.wr = 0 then q.size - 1 else q.wr - 1) = slotIdx q.size q.rd (l.length - 1) := by
      simp only [slotIdx] at *; split at h1 <;> split <;> split <;> omega
    have hlt := slotIdx_lt h2 (show l.length - 1 < q.size by omega)
    simp [Ring.back, hne', Ring.derefPtr, e, Ring.load, hlt, hlive]

/-- Non-vacuity for C02/C03: a wrapped state (read index 1, write index 0 in a size-3 buffer). -/
example : ∃ q, ReachedWith 3 [2, 4] q ∧ q.rd = 1 ∧ q.wr = 0 := by
  refine ⟨_, ⟨[.write 1, .write 2, .write 3, .read, .write 4], ?_, ?_, _, rfl⟩, ?_, ?_⟩
  · simp [Fifo.Valid]
  · simp [Fifo.run, Fifo.step, Fifo.empty]
  · rfl
  · rfl

/-- **C03** Iteration from `begin()`: the `k`-th increment points at the `k`-th oldest stored
element and is the `end()` sentinel for `k ≥` the number of stored elements; a full client
loop visits exactly the stored elements oldest first and ends at `end()`; an in-range
iterator is good iff it points at a stored element; `end()` is never good.
Precondition: the size fits the code's 32-bit field without colliding with the sentinel
(always true for a `uint32_t` size). -/
theorem C03_iteration_visits_contents (n : Nat) (hn : 2 ≤ n) (hs : n ≤ endIdx) (l : List α)
    (q : Ring α) (h : ReachedWith n l q) :
    (∀ k a, l[k]? = some a → q.incBy k q.begin ≠ endIdx ∧ q.deref (q.incBy k q.begin) = .ok a) ∧
    (∀ k, l.length ≤ k → q.incBy k q.begin = endIdx) ∧
    q.visit n q.begin = .ok (l, endIdx) ∧
    (∀ i, i < n → (q.good i = true ↔ ∃ k, k < l.length ∧ q.incBy k q.begin = i)) ∧
    (∀ i, i < n → q.good i = true → ∃ a ∈ l, q.deref i = .ok a) ∧
    q.good endIdx = false := by
  obtain ⟨r, s⟩ := h.repr hn
  subst s
  have hinc : ∀ k, q.incBy k q.begin = pos q l k := by
    intro k; rw [begin_pos r, incBy_pos r hs]; simp
  have hgood : ∀ i, i < q.size → (q.good i = true ↔ ∃ k, k < l.length ∧ q.incBy k q.begin = i) := by
    intro i hi
    rw [r.occupied hs i hi]
    constructor
    · rintro ⟨k, hk, e⟩; exact ⟨k, hk, by rw [hinc, pos, if_pos hk, e]⟩
    · rintro ⟨k, hk, e⟩; exact ⟨k, hk, by rw [← e, hinc, pos, if_pos hk]⟩
  refine ⟨?_, ?_, ?_, hgood, ?_, not_good_end q⟩
  · intro k a hk
    rw [hinc]
    have hlt : k < l.length := by
      rcases Nat.lt_or_ge k l.length with h' | h'
      · exact h'
      · rw [List.getElem?_eq_none h'] at hk; simp at hk
    exact ⟨pos_ne_end r hs k hlt, deref_pos r k a hk⟩
  · intro k hk
    rw [hinc, pos, if_neg (by omega)]
  · rw [begin_pos r]
    have := visit_pos r hs q.size 0 (by have := r.len; omega)
    simpa using this
  · intro i hi hg
    obtain ⟨k, hk, e⟩ := (hgood i hi).1 hg
    refine ⟨l[k], List.getElem_mem _, ?_⟩
    rw [← e, hinc]
    exact deref_pos r k _ (List.getElem?_eq_getElem hk)

/-- Non-vacuity for C03 (32-bit side condition on a realistic size, 100000 as in the schema). -/
example : (2 : Nat) ≤ 100000 ∧ (100000 : Nat) ≤ endIdx := by decide

/-- **C06 is false of the code**: on every empty buffer `pop(1)` destroys an object that does
not exist (undefined behaviour in a release build), and the resulting indices make the buffer
report `n - 1` elements. -/
theorem C06_pop_beyond_contents_counterexample (n : Nat) (hn : 2 ≤ n) (q : Ring α)
    (h : ReachedWith n [] q) :
    q.pop 1 = .ub .deadObject ∧ occIdx q.size (nextIdx q.size q.rd) q.wr = n - 1 := by
  obtain ⟨r, s⟩ := h.repr hn
  have hd := r.dead q.rd r.rdlt (by simp)
  have h2 := r.rdlt
  have e := r.rd_eq_wr.2 rfl
  constructor
  · simp [Ring.pop, Ring.popFront, Ring.destroy, h2, hd]
  · simp only [occIdx, nextIdx, ← e, s] at *
    split <;> split <;> omega

/-- Non-vacuity: the fresh buffer is such an empty state. -/
example : ReachedWith (α := Nat) 2 [] (Ring.init Nat 2) := ⟨[], trivial, rfl, _, rfl⟩

/-- Values whose write was reported successful, computed from calls and returned results. -/
def accepted : List (Op α) → List (Res α) → List α
  | .write a :: ops, .flag true :: rs => a :: accepted ops rs
  | _ :: ops, _ :: rs => accepted ops rs
  | _, _ => []

/-- Values returned by `read`, computed from the returned results. -/
def received : List (Res α) → List α
  | .value (some a) :: rs => a :: received rs
  | _ :: rs => received rs
  | [] => []

theorem fifo_history (f : Fifo α) (ops : List (Op α)) :
    ∃ removed, f.items ++ accepted ops (f.run ops).2 = removed ++ (f.run ops).1.items ∧
      List.Sublist (received (f.run ops).2) removed := by
  induction ops generalizing f with
  | nil => exact ⟨[], by simp [accepted, Fifo.run], by simp [received, Fifo.run]⟩
  | cons op ops ih =>
    obtain ⟨rm, h1, h2⟩ := ih (f.step op).1
    cases op with
    | write a =>
      by_cases hf : f.items.length < f.cap
      · refine ⟨rm, ?_, ?_⟩
        · simp only [Fifo.run, Fifo.step, hf, if_true, accepted] at h1 ⊢
          rw [← h1]; simp
        · simpa [Fifo.run, Fifo.step, hf, received] using h2
      · refine ⟨rm, ?_, ?_⟩
        · simp only [Fifo.run, Fifo.step, hf, if_false, accepted] at h1 ⊢
          rw [← h1]
        · simpa [Fifo.run, Fifo.step, hf, received] using h2
    | read =>
      rcases hi : f.items with _ | ⟨a, rest⟩
      · refine ⟨rm, ?_, ?_⟩
        · simp only [Fifo.run, Fifo.step, hi, accepted] at h1 ⊢
          rw [← h1]
        · simpa [Fifo.run, Fifo.step, hi, received] using h2
      · refine ⟨a :: rm, ?_, ?_⟩
        · simp only [Fifo.run, Fifo.step, hi, accepted] at h1 ⊢
          simp [h1]
        · simpa [Fifo.run, Fifo.step, hi, received] using h2
    | pop x =>
      refine ⟨f.items.take x ++ rm, ?_, ?_⟩
      · simp only [Fifo.run, Fifo.step, accepted] at h1 ⊢
        rw [List.append_assoc, ← h1, ← List.append_assoc, List.take_append_drop]
      · simp only [Fifo.run, Fifo.step, received] at h2 ⊢
        exact h2.trans (List.sublist_append_right _ _)
    | flush =>
      refine ⟨f.items ++ rm, ?_, ?_⟩
      · simp only [Fifo.run, Fifo.step, accepted, List.nil_append] at h1 ⊢
        rw [List.append_assoc, ← h1]
      · simp only [Fifo.run, Fifo.step, received] at h2 ⊢
        exact h2.trans (List.sublist_append_right _ _)

/-- **C06 (partial)** With every `pop(x)` within the contents, at any time the accepted writes
split into a removed prefix and the currently stored elements: nothing is resurrected, nothing
is lost, and the values handed out by `read` come, in order, from the removed prefix.
Missing for the full claim: pop counts above the contents (see the counterexample). -/
theorem C06_no_resurrection_partial (n : Nat) (hn : 2 ≤ n) (ops : List (Op α))
    (hv : (Fifo.empty α n).Valid ops) :
    ∃ q rs l removed, (Ring.init α n).run ops = .ok (q, rs) ∧ Repr q l ∧
      accepted ops rs = removed ++ l ∧ List.Sublist (received rs) removed := by
  obtain ⟨q, e, r, -, -⟩ := C01_ring_is_bounded_fifo n hn ops hv
  obtain ⟨rm, h1, h2⟩ := fifo_history (Fifo.empty α n) ops
  exact ⟨q, _, _, rm, e, r, by simpa [Fifo.empty] using h1, h2⟩

/-- A valid history with a wrap-around: five writes of which one is rejected, two reads, one pop. -/
example : (Fifo.empty Nat 3).Valid [.write 1, .write 2, .write 3, .read, .write 4, .pop 1, .read, .write 5] ∧
    ((Fifo.empty Nat 3).run [.write 1, .write 2, .write 3, .read, .write 4, .pop 1, .read, .write 5]).1.items = [5] := by
  constructor
  · simp [Fifo.Valid, Fifo.step, Fifo.empty]
  · simp [Fifo.run, Fifo.step, Fifo.empty]

end Verif.Ring
