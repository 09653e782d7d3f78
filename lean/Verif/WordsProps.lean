import Verif.WordsModel
import Verif.RingLemmas
/-
C128: configured sizes and the widths of the buffer's members.
-/
namespace Verif.Words
open Verif.Ring (Ring Repr nextIdx slotIdx)
variable {α : Type}

/- Specification: a queue with `cap` places. -/

/-- What a queue with `cap` places holding `l` (oldest first) holds after a call, and the result. -/
def spec (cap : Nat) (l : List α) : Op α → List α × Res α
  | .write a => if l.length < cap then (l ++ [a], .flag true) else (l, .flag false)
  | .read => (l.tail, .value l.head?)
  | .pop x => (l.drop x, .unit)
  | .flush => ([], .unit)
  | .occupancy => (l, .num l.length)
  | .isEmpty => (l, .flag l.isEmpty)
  | .isFull => (l, .flag (l.length == cap))
  | .capacity => (l, .num cap)
  | .front => (l, .value l.head?)
  | .back => (l, .value l.getLast?)
  | .items => (l, .list l)

/-- Calls in sequence. -/
def specRun (cap : Nat) : List α → List (Op α) → List α × List (Res α)
  | l, [] => (l, [])
  | l, op :: ops =>
    let r := spec cap l op
    let s := specRun cap r.1 ops
    (s.1, r.2 :: s.2)

/-- The caller removes at most what is there. -/
def Valid (cap : Nat) : List α → List (Op α) → Prop
  | _, [] => True
  | l, op :: ops => (∀ x, op = .pop x → x ≤ l.length) ∧ Valid cap (spec cap l op).1 ops

/- Refinement -/

/-- Forget the widths. -/
def abs (q : Buf α) : Ring α := ⟨q.size, q.slots, q.rd, q.wr, q.overflow⟩

/-- The buffer has the contents `l`, its size is small enough for `int`, its block large enough. -/
structure Rep (sz : Nat) (q : Buf α) (l : List α) : Prop where
  repr : Repr (abs q) l
  small : q.size < 2147483648
  block : sz * q.size ≤ q.bytes

theorem inside_of {sz : Nat} {q : Buf α} (hb : sz * q.size ≤ q.bytes) {i : Nat} (hi : i < q.size) : q.inside sz i = true := by
  simp only [Buf.inside, decide_eq_true_eq]
  exact Nat.le_trans (Nat.mul_le_mul_left sz (by omega)) hb

theorem next_of {q : Buf α} (hs : q.size < 4294967296) {i : Nat} (hi : i < q.size) : q.next i = nextIdx q.size i := by
  have e : u32 (i + 1) = i + 1 := Nat.mod_eq_of_lt (by omega)
  simp only [Buf.next, e, nextIdx]

theorem toInt_of {x : Nat} (h : x < 2147483648) : toInt x = x := by simp [toInt, h]

theorem int_of {x : Int} (h1 : -2147483648 ≤ x) (h2 : x ≤ 2147483647) : int x = .ok x := by simp [int, h1, h2]

theorem Rep.rdlt {sz : Nat} {q : Buf α} {l : List α} (h : Rep sz q l) : q.rd < q.size := h.repr.rdlt
theorem Rep.wrlt {sz : Nat} {q : Buf α} {l : List α} (h : Rep sz q l) : q.wr < q.size := h.repr.wrlt

theorem load_abs {sz : Nat} {q : Buf α} {l : List α} (h : Rep sz q l) {i : Nat} (hi : i < q.size) :
    q.load sz i = (abs q).load i := by
  simp [Buf.load, Ring.load, inside_of h.block hi, abs, hi]
  rfl

theorem write_abs {sz : Nat} {q : Buf α} {l : List α} (h : Rep sz q l) (a : α) {r : Ring α} {b : Bool}
    (e : (abs q).write a = .ok (r, b)) : ∃ q', q.write sz a = .ok (q', b) ∧ abs q' = r ∧ q'.bytes = q.bytes := by
  have hw := h.wrlt
  have hn : q.next q.wr = nextIdx q.size q.wr := next_of (by have := h.small; omega) hw
  simp only [Ring.write, abs, Ring.construct, hw, if_true] at e
  simp only [Buf.write, hn, Buf.construct, inside_of h.block hw, if_true]
  split at e
  · rename_i h1
    rw [if_pos h1]
    cases hsl : q.slots q.wr with
    | some _ => rw [hsl] at e; simp at e
    | none =>
      rw [hsl] at e
      simp only [Outcome.bind_ok, Outcome.ok.injEq, Prod.mk.injEq] at e
      obtain ⟨rfl, rfl⟩ := e
      exact ⟨_, rfl, rfl, rfl⟩
  · rename_i h1
    rw [if_neg h1]
    simp only [Outcome.ok.injEq, Prod.mk.injEq] at e
    obtain ⟨rfl, rfl⟩ := e
    exact ⟨_, rfl, rfl, rfl⟩

theorem destroy_abs {sz : Nat} {q : Buf α} {l : List α} (h : Rep sz q l) {i : Nat} (hi : i < q.size) {r : Ring α}
    (e : (abs q).destroy i = .ok r) : ∃ q', q.destroy sz i = .ok q' ∧ abs q' = r ∧ q'.bytes = q.bytes ∧
      q'.wr = q.wr ∧ q'.size = q.size := by
  simp only [Ring.destroy, abs, hi, if_true] at e
  simp only [Buf.destroy, inside_of h.block hi, if_true]
  cases hsl : q.slots i with
  | none => rw [hsl] at e; simp at e
  | some _ =>
    rw [hsl] at e
    simp only [Outcome.ok.injEq] at e
    subst e
    exact ⟨_, rfl, rfl, rfl, rfl, rfl⟩

theorem read_abs {sz : Nat} {q : Buf α} {l : List α} (h : Rep sz q l) {r : Ring α} {v : Option α}
    (e : (abs q).read = .ok (r, v)) : ∃ q', q.read sz = .ok (q', v) ∧ abs q' = r ∧ q'.bytes = q.bytes := by
  have hr := h.rdlt
  have hn : q.next q.rd = nextIdx q.size q.rd := next_of (by have := h.small; omega) hr
  simp only [Ring.read, Buf.read] at e ⊢
  have e0 : ((abs q).rd = (abs q).wr) = (q.rd = q.wr) := rfl
  simp only [e0] at e
  split at e
  · rename_i h1
    rw [if_pos h1]
    simp only [Outcome.ok.injEq, Prod.mk.injEq] at e
    obtain ⟨rfl, rfl⟩ := e
    exact ⟨_, rfl, rfl, rfl⟩
  · rename_i h1
    rw [if_neg h1, load_abs h hr]
    change (((abs q).load q.rd).bind _) = _ at e
    cases hl : (abs q).load q.rd with
    | ub _ => rw [hl] at e; cases e
    | throws _ => rw [hl] at e; cases e
    | ok a =>
      rw [hl] at e
      change (((abs q).destroy q.rd).bind _) = _ at e
      cases hd : (abs q).destroy q.rd with
      | ub _ => rw [hd] at e; cases e
      | throws _ => rw [hd] at e; cases e
      | ok r1 =>
        obtain ⟨q', e1, rfl, hb, -⟩ := destroy_abs h hr hd
        rw [hd] at e
        cases e
        rw [Outcome.bind_ok, e1]
        exact ⟨_, rfl, by simp only [abs, hn], hb⟩

theorem popFront_abs {dbg : Bool} {sz : Nat} {q : Buf α} {a : α} {l : List α} (h : Rep sz q (a :: l)) :
    ∃ q', q.popFront dbg sz = .ok q' ∧ Rep sz q' l ∧ q'.size = q.size := by
  have hr := h.rdlt
  have hn : q.next q.rd = nextIdx q.size q.rd := next_of (by have := h.small; omega) hr
  obtain ⟨r, e, hrep, hsz, -, -⟩ := Ring.popFront_ok h.repr
  have hne : q.rd ≠ q.wr := fun e => by simpa using h.repr.rd_eq_wr.1 e
  have hc : (dbg && q.rd == q.wr) = false := by simp [hne]
  simp only [Ring.popFront] at e
  cases hd : (abs q).destroy q.rd with
  | ub _ => change (((abs q).destroy q.rd).bind _) = _ at e; rw [hd] at e; cases e
  | throws _ => change (((abs q).destroy q.rd).bind _) = _ at e; rw [hd] at e; cases e
  | ok r1 =>
    change (((abs q).destroy q.rd).bind _) = _ at e
    rw [hd] at e
    cases e
    obtain ⟨q', e1, rfl, hb, hw, hs⟩ := destroy_abs h hr hd
    refine ⟨{ q' with rd := q.next q.rd }, by simp [Buf.popFront, hc, e1], ⟨?_, ?_, ?_⟩, hs⟩
    · have : abs { q' with rd := q.next q.rd } = { abs q' with rd := nextIdx (abs q).size (abs q).rd } := by
        simp only [abs, hn]
      rw [this]; exact hrep
    · show q'.size < _; rw [hs]; exact h.small
    · show sz * q'.size ≤ q'.bytes; rw [hs, hb]; exact h.block

theorem pop_abs {dbg : Bool} {sz : Nat} {q : Buf α} {l : List α} (h : Rep sz q l) (x : Nat) (hx : x ≤ l.length) :
    ∃ q', q.pop dbg sz x = .ok q' ∧ Rep sz q' (l.drop x) ∧ q'.size = q.size := by
  induction x generalizing q l with
  | zero => exact ⟨q, rfl, by simpa using h, rfl⟩
  | succ x ih =>
    cases l with
    | nil => simp at hx
    | cons a l =>
      obtain ⟨q1, e1, h1, s1⟩ := popFront_abs (dbg := dbg) h
      obtain ⟨q2, e2, h2, s2⟩ := ih h1 (by simpa using hx)
      exact ⟨q2, by simp [Buf.pop, e1, e2], by simpa using h2, by rw [s2, s1]⟩

theorem occupancy_abs {sz : Nat} {q : Buf α} {l : List α} (h : Rep sz q l) : q.occupancy = .ok l.length := by
  have hr := h.rdlt; have hw := h.wrlt; have hs := h.small
  have ho : Ring.occIdx q.size q.rd q.wr = l.length := h.repr.occ
  simp only [Ring.occIdx] at ho
  rw [Buf.occupancy, toInt_of (by omega), toInt_of (by omega), toInt_of (by omega), int_of (by omega) (by omega),
    Outcome.bind_ok]
  split
  · rename_i hc
    rw [if_pos hc] at ho
    rw [int_of (by omega) (by omega), Outcome.bind_ok, ofInt]
    congr 1; omega
  · rename_i hc
    rw [if_neg hc] at ho
    rw [ofInt]; congr 1; omega

theorem flush_abs {dbg : Bool} {sz : Nat} {q : Buf α} {l : List α} (h : Rep sz q l) :
    ∃ q', q.flush dbg sz = .ok q' ∧ Rep sz q' [] ∧ q'.size = q.size := by
  obtain ⟨q', e, h', s⟩ := pop_abs (dbg := dbg) h l.length (Nat.le_refl _)
  exact ⟨q', by rw [Buf.flush, occupancy_abs h, Outcome.bind_ok, e], by simpa using h', s⟩

theorem good_abs (q : Buf α) (i : Nat) : q.good i = (abs q).good i := rfl

theorem good_lt {q : Buf α} {i : Nat} (hi : i < q.size ∨ i = endIdx)
    (hg : q.good i = true) : i < q.size := by
  rcases hi with hi | rfl
  · exact hi
  · simp [Buf.good] at hg

theorem inc_abs {sz : Nat} {q : Buf α} {l : List α} (h : Rep sz q l) {i : Nat} (hi : i < q.size ∨ i = endIdx) :
    q.inc i = (abs q).inc i ∧ (q.inc i < q.size ∨ q.inc i = endIdx) := by
  have h2 : 2 ≤ q.size := h.repr.two
  have e : (abs q).inc i = (if !q.good (if q.good i then nextIdx q.size i else i) then endIdx
      else if q.good i then nextIdx q.size i else i) := rfl
  rw [e]
  simp only [Buf.inc]
  by_cases hg : q.good i = true
  · have hl := good_lt hi hg
    have hn : q.next i = nextIdx q.size i := next_of (by have := h.small; omega) hl
    have hlt : nextIdx q.size i < q.size := by simp only [nextIdx]; split <;> omega
    rw [if_pos hg, if_pos hg, hn]
    refine ⟨rfl, ?_⟩
    by_cases hg2 : q.good (nextIdx q.size i) = true
    · rw [hg2]; exact .inl hlt
    · rw [Bool.not_eq_true] at hg2; rw [hg2]; exact .inr rfl
  · rw [if_neg hg, if_neg hg]
    rw [Bool.not_eq_true] at hg
    rw [hg]
    exact ⟨rfl, .inr rfl⟩

theorem visit_abs {sz : Nat} {q : Buf α} {l : List α} (h : Rep sz q l) (fuel k : Nat) (hf : l.length < fuel + k) (h0 : 0 < fuel) :
    q.visit sz fuel (Ring.pos (abs q) l k) = .ok (l.drop k) := by
  have hs : (abs q).size ≤ Ring.endIdx := by have := h.small; change q.size ≤ 4294967295; omega
  induction fuel generalizing k with
  | zero => omega
  | succ f ih =>
    rw [Buf.visit]
    by_cases hk : k < l.length
    · have hne : Ring.pos (abs q) l k ≠ endIdx := Ring.pos_ne_end h.repr hs k hk
      rw [if_neg hne]
      have hlt : Ring.pos (abs q) l k < q.size := by
        simp only [Ring.pos, hk, if_true]
        exact Ring.slotIdx_lt h.repr.rdlt (Nat.lt_trans hk h.repr.len)
      have hd := Ring.deref_pos h.repr k _ (List.getElem?_eq_getElem hk)
      rw [Ring.deref, ← load_abs h hlt] at hd
      rw [hd, Outcome.bind_ok, (inc_abs h (.inl hlt)).1, Ring.inc_pos h.repr hs, ih (k + 1) (by omega) (by omega), Outcome.bind_ok]
      rw [List.drop_eq_getElem_cons hk]
    · have he : Ring.pos (abs q) l k = endIdx := by simp only [Ring.pos, hk, if_false]; rfl
      rw [if_pos he, List.drop_eq_nil_of_le (by omega)]

theorem items_abs {sz : Nat} {q : Buf α} {l : List α} (h : Rep sz q l) : q.items sz = .ok l := by
  have hb := Ring.begin_pos h.repr
  have e : (if q.rd = q.wr then endIdx else q.rd) = (abs q).begin := rfl
  have hlen : l.length < q.size := h.repr.len
  have := h.small
  rw [Buf.items, e, hb, visit_abs h _ 0 (by omega) (by omega)]
  rfl

theorem Rep.mk' {sz : Nat} {q q' : Buf α} {l l' : List α} (h : Rep sz q l) (hb : q'.bytes = q.bytes) (hs : q'.size = q.size)
    (hr : Repr (abs q') l') : Rep sz q' l' :=
  ⟨hr, hs ▸ h.small, by rw [hs, hb]; exact h.block⟩

theorem capacity_of {q : Buf α} (h2 : 1 ≤ q.size) (hs : q.size < 4294967296) : q.capacity = q.size - 1 := by
  simp only [Buf.capacity, u32]; omega

theorem getLast_get (l : List α) : l.getLast? = l[l.length - 1]? := List.getLast?_eq_getElem? ..

theorem step_abs {dbg : Bool} {sz : Nat} {q : Buf α} {l : List α} (h : Rep sz q l) (op : Op α)
    (hv : ∀ x, op = .pop x → x ≤ l.length) :
    ∃ q', q.step dbg sz op = .ok (q', (spec (q.size - 1) l op).2) ∧ Rep sz q' (spec (q.size - 1) l op).1 ∧ q'.size = q.size := by
  have hs := h.small
  have h2 : 2 ≤ q.size := h.repr.two
  have hlen : l.length < q.size := h.repr.len
  cases op with
  | write a =>
    simp only [spec, Buf.step]
    by_cases hf : l.length < q.size - 1
    · obtain ⟨r, e, hr, hsz, -⟩ := Ring.write_ok h.repr a hf
      obtain ⟨q', e', rfl, hb⟩ := write_abs h a e
      rw [if_pos hf]
      exact ⟨q', by rw [e']; rfl, h.mk' hb hsz hr, hsz⟩
    · have e := Ring.write_full h.repr a hf
      obtain ⟨q', e', hq, hb⟩ := write_abs h a e
      rw [if_neg hf]
      have hsz : q'.size = q.size := congrArg Ring.size hq
      exact ⟨q', by rw [e']; rfl, h.mk' hb hsz (hq ▸ Ring.repr_overflow h.repr _), hsz⟩
  | read =>
    simp only [spec, Buf.step]
    cases l with
    | nil =>
      obtain ⟨q', e', hq, hb⟩ := read_abs h (Ring.read_empty h.repr)
      have hsz : q'.size = q.size := congrArg Ring.size hq
      exact ⟨q', by rw [e']; rfl, h.mk' hb hsz (hq ▸ h.repr), hsz⟩
    | cons a l =>
      obtain ⟨r, e, hr, hsz, -⟩ := Ring.read_ok h.repr
      obtain ⟨q', e', rfl, hb⟩ := read_abs h e
      exact ⟨q', by rw [e']; rfl, h.mk' hb hsz hr, hsz⟩
  | pop x =>
    obtain ⟨q', e, h', s⟩ := pop_abs (dbg := dbg) h x (hv x rfl)
    exact ⟨q', by simp only [Buf.step, e, spec, Outcome.bind_ok], h', s⟩
  | flush =>
    obtain ⟨q', e, h', s⟩ := flush_abs (dbg := dbg) h
    exact ⟨q', by simp only [Buf.step, e, spec, Outcome.bind_ok], h', s⟩
  | occupancy => exact ⟨q, by simp only [Buf.step, occupancy_abs h, spec, Outcome.bind_ok], h, rfl⟩
  | isEmpty =>
    refine ⟨q, ?_, h, rfl⟩
    simp only [Buf.step, spec, Buf.isEmpty]
    have : (q.rd == q.wr) = l.isEmpty := by
      have he : q.rd = q.wr ↔ l = [] := h.repr.rd_eq_wr
      rw [Bool.eq_iff_iff, beq_iff_eq, List.isEmpty_iff, he]
    rw [this]
  | isFull =>
    refine ⟨q, ?_, h, rfl⟩
    simp only [Buf.step, spec, Buf.isFull]
    have hn : q.next q.wr = nextIdx q.size q.wr := next_of (by omega) h.wrlt
    have : (q.next q.wr == q.rd) = (l.length == q.size - 1) := by
      have he : nextIdx q.size q.wr = q.rd ↔ l.length = q.size - 1 := h.repr.full_iff
      rw [Bool.eq_iff_iff, beq_iff_eq, beq_iff_eq, hn, he]
    rw [this]
  | capacity =>
    refine ⟨q, ?_, h, rfl⟩
    simp only [Buf.step, spec, capacity_of (show 1 ≤ q.size by omega) (by omega)]
  | front =>
    refine ⟨q, ?_, h, rfl⟩
    have he : q.rd = q.wr ↔ l = [] := h.repr.rd_eq_wr
    simp only [Buf.step, spec, Buf.front]
    cases l with
    | nil => rw [if_pos (he.2 rfl)]; rfl
    | cons a l =>
      rw [if_neg (fun e => by simpa using he.1 e), load_abs h h.rdlt]
      have : (abs q).load q.rd = .ok a := Ring.load_rd h.repr
      rw [this]; rfl
  | back =>
    refine ⟨q, ?_, h, rfl⟩
    have he : q.rd = q.wr ↔ l = [] := h.repr.rd_eq_wr
    simp only [Buf.step, spec, Buf.back]
    by_cases hl : l = []
    · subst hl; rw [if_pos (he.2 rfl).symm]; rfl
    · have hpos : 0 < l.length := List.length_pos_iff.2 hl
      rw [if_neg (fun e => hl (he.1 e.symm))]
      have hi : (if q.wr = 0 then u32 (q.size + 4294967295) else q.wr - 1) = slotIdx q.size q.rd (l.length - 1) := by
        have hw : q.wr = slotIdx q.size q.rd l.length := h.repr.wreq
        have hr := h.rdlt
        simp only [slotIdx] at hw ⊢
        simp only [u32]
        split at hw <;> split <;> split <;> omega
      have hlt : slotIdx q.size q.rd (l.length - 1) < q.size := Ring.slotIdx_lt h.rdlt (by omega)
      have hv : q.slots (slotIdx q.size q.rd (l.length - 1)) = some l[l.length - 1] :=
        h.repr.live _ _ (List.getElem?_eq_getElem (by omega))
      rw [hi, Buf.load, inside_of h.block hlt, if_pos rfl, hv, getLast_get, List.getElem?_eq_getElem (by omega)]
      rfl
  | items => exact ⟨q, by simp only [Buf.step, items_abs h, spec, Outcome.bind_ok], h, rfl⟩

theorem run_abs {dbg : Bool} {sz : Nat} {q : Buf α} {l : List α} (h : Rep sz q l) (ops : List (Op α))
    (hv : Valid (q.size - 1) l ops) :
    ∃ q', q.run dbg sz ops = .ok (q', (specRun (q.size - 1) l ops).2) ∧ Rep sz q' (specRun (q.size - 1) l ops).1 ∧
      q'.size = q.size := by
  induction ops generalizing q l with
  | nil => exact ⟨q, rfl, h, rfl⟩
  | cons op ops ih =>
    obtain ⟨q1, e1, h1, s1⟩ := step_abs (dbg := dbg) h op hv.1
    have hv2 := hv.2
    rw [← s1] at hv2 h1
    obtain ⟨q2, e2, h2, s2⟩ := ih h1 hv2
    refine ⟨q2, ?_, ?_, by rw [s2, s1]⟩
    · rw [Buf.run, e1, Outcome.bind_ok, e2, Outcome.bind_ok]; simp only [specRun, s1]
    · simpa only [specRun, s1] using h2

/- Configuration -/

theorem freeLoop_ok {sz : Nat} {q : Buf α} {l : List α} (i fuel : Nat) (h : Rep sz { q with rd := i } l) (hf : l.length < fuel) :
    ∃ q', q.freeLoop sz fuel i = .ok q' := by
  induction fuel generalizing q l i with
  | zero => omega
  | succ f ih =>
    rw [Buf.freeLoop]
    have he : i = q.wr ↔ l = [] := h.repr.rd_eq_wr
    cases l with
    | nil => rw [if_pos (he.2 rfl)]; exact ⟨q, rfl⟩
    | cons a l =>
      rw [if_neg (fun e => by simpa using he.1 e)]
      have hi : i < q.size := h.rdlt
      obtain ⟨r, -, hrep, -, -, hr⟩ := Ring.popFront_ok h.repr
      have hsl : q.slots i = some a := by
        have := h.repr.live 0 a (by simp)
        simpa [slotIdx, abs, hi] using this
      have hd : q.destroy sz i = .ok { q with slots := fun j => if j = i then none else q.slots j } := by
        have hin : q.inside sz i = true := inside_of (q := q) h.block hi
        simp [Buf.destroy, hin, hsl]
      rw [hd, Outcome.bind_ok]
      refine ih (q := { q with slots := fun j => if j = i then none else q.slots j }) (l := l) _ ⟨?_, h.small, h.block⟩
        (by simpa using hf)
      rw [hr] at hrep
      exact hrep

theorem fill_ok {sz : Nat} (d : α) {q : Buf α} {l : List α} (h : Rep sz q l) (k : Nat) (hk : l.length + k ≤ q.size - 1) :
    ∃ q' l', q.fill sz d k = .ok q' ∧ Rep sz q' l' ∧ q'.size = q.size := by
  induction k generalizing q l with
  | zero => exact ⟨q, l, rfl, h, rfl⟩
  | succ k ih =>
    obtain ⟨r, e, hr, hsz, -⟩ := Ring.write_ok h.repr d (by change l.length < q.size - 1; omega)
    obtain ⟨q1, e1, rfl, hb⟩ := write_abs h d e
    have hs1 : q1.size = q.size := hsz
    obtain ⟨q2, l2, e2, h2, s2⟩ := ih (h.mk' hb hs1 hr) (by rw [hs1]; simp; omega)
    exact ⟨q2, l2, by rw [Buf.fill, e1, Outcome.bind_ok, e2], h2, by rw [s2, hs1]⟩

theorem rep_fresh {sz bytes n : Nat} (h2 : 2 ≤ n) (hs : n < 2147483648) (hb : sz * n ≤ bytes) (ov : Nat) :
    Rep sz (⟨bytes, n, fun _ => none, 0, 0, ov⟩ : Buf α) [] :=
  ⟨Ring.repr_overflow (Ring.repr_init n h2) ov, hs, hb⟩

theorem rep_init (sz : Nat) : Rep sz (Buf.init α sz) [] := rep_fresh (by decide) (by decide) (Nat.le_refl _) 0

theorem conf_ok {dbg : Bool} {sz : Nat} (d : α) {q : Buf α} {l : List α} (h : Rep sz q l) (c : Conf)
    (h2 : 2 ≤ c.n % 4294967296) (hs : c.n % 4294967296 < 2147483648) (h64 : sz * c.n < 18446744073709551616)
    (ha : sz * c.n ≤ c.avail) :
    ∃ q', q.conf dbg sz d c = .ok q' ∧ Rep sz q' [] ∧ q'.size = c.n % 4294967296 := by
  have hle : c.n % 4294967296 ≤ c.n := Nat.mod_le _ _
  have hlen : l.length < q.size := h.repr.len
  have hsm := h.small
  obtain ⟨q0, e0⟩ := freeLoop_ok (q := q) (l := l) q.rd 18446744073709551616 h (by omega)
  have hu : u64 (sz * c.n) = sz * c.n := Nat.mod_eq_of_lt h64
  have hd : (dbg && decide (c.n < 2)) = false := by
    have : ¬ c.n < 2 := by omega
    simp [this]
  have hf : Rep sz (⟨sz * c.n, u32 c.n, fun _ => none, 0, 0, q.overflow⟩ : Buf α) [] :=
    rep_fresh h2 hs (Nat.mul_le_mul_left sz hle) _
  rw [Buf.conf, hd, e0, Outcome.bind_ok, hu, if_pos ha]
  simp only [Bool.false_eq_true, if_false]
  cases c.prealloc with
  | false => exact ⟨_, rfl, hf, rfl⟩
  | true =>
    have hcap : (⟨sz * c.n, u32 c.n, fun _ => none, 0, 0, q.overflow⟩ : Buf α).capacity = u32 c.n - 1 :=
      capacity_of (show 1 ≤ u32 c.n by simp only [u32]; omega) (show u32 c.n < _ by simp only [u32]; omega)
    obtain ⟨q2, l2, e2, h2, s2⟩ := fill_ok d hf (u32 c.n - 1) (by simp)
    obtain ⟨q3, e3, h3, s3⟩ := flush_abs (dbg := dbg) h2
    refine ⟨q3, ?_, h3, by rw [s3, s2]; rfl⟩
    rw [if_pos rfl, hcap, e2, Outcome.bind_ok, e3]

/-- **C128 (partial)** A buffer configured for `n` elements, `2 ≤ n < 2^31`, has `n - 1` places: whatever `conf`
commands it receives, with or without preallocation, with calls between them, every call returns what a queue
with `n - 1` places would (no overflow of an index or of an `int`, no access outside the block), in builds with
and without assertions. `sz` is the size of an element.
Missing: sizes of `2^31` or more and, without assertions, sizes 0 and 1 (the counterexamples); allocations that
fail (`C128_no_memory`, C114). -/
theorem C128_places_partial (dbg : Bool) (sz : Nat) (d : α) (rs : List (Conf × List (Op α)))
    (hc : ∀ r ∈ rs, 2 ≤ r.1.n ∧ r.1.n < 2147483648 ∧ sz * r.1.n < 18446744073709551616 ∧ sz * r.1.n ≤ r.1.avail)
    (hv : ∀ r ∈ rs, Valid (r.1.n - 1) [] r.2) :
    (Buf.init α sz).rounds dbg sz d rs = .ok (rs.map fun r => (specRun (r.1.n - 1) [] r.2).2) := by
  suffices H : ∀ (q : Buf α) l, Rep sz q l →
      q.rounds dbg sz d rs = .ok (rs.map fun r => (specRun (r.1.n - 1) [] r.2).2) from H _ _ (rep_init sz)
  induction rs with
  | nil => intro q l _; rfl
  | cons r rs ih =>
    intro q l h
    obtain ⟨c1, c2, c3, c4⟩ := hc r (by simp)
    have hm : r.1.n % 4294967296 = r.1.n := Nat.mod_eq_of_lt (by omega)
    obtain ⟨q1, e1, h1, s1⟩ := conf_ok (dbg := dbg) d h r.1 (by omega) (by omega) c3 c4
    rw [hm] at s1
    obtain ⟨q2, e2, h2, -⟩ := run_abs (dbg := dbg) h1 r.2 (by rw [s1]; exact hv r (by simp))
    have e3 := ih (fun r hr => hc r (by simp [hr])) (fun r hr => hv r (by simp [hr])) q2 _ h2
    obtain ⟨c, ops⟩ := r
    rw [Buf.rounds, e1, Outcome.bind_ok, e2, Outcome.bind_ok, e3, Outcome.bind_ok, s1]
    rfl

/-- Two commands, the second with preallocation; the buffer is filled, wraps around and is searched. -/
example : (Buf.init Nat 64).rounds true 64 7
      [(⟨3, false, 1000⟩, [.write 1, .write 2, .write 3, .read, .write 4, .occupancy, .items, .back]),
       (⟨2, true, 128⟩, [.isEmpty, .write 5, .isFull, .capacity, .front])] =
    .ok [[.flag true, .flag true, .flag false, .value (some 1), .flag true, .num 2, .list [2, 4], .value (some 4)],
      [.flag true, .flag true, .flag true, .num 1, .value (some 5)]] :=
  C128_places_partial true 64 7 _ (by simp) (by simp [Valid])

/-- **C128** When the allocator cannot give the memory, `conf` does not return: nothing smaller is used. -/
theorem C128_no_memory (dbg : Bool) (sz : Nat) (d : α) (ops : List (Op α)) (c : Conf) (h2 : 2 ≤ c.n)
    (h64 : sz * c.n < 18446744073709551616) (ha : c.avail < sz * c.n) (rest : List (Conf × List (Op α))) :
    (Buf.init α sz).rounds dbg sz d ((c, ops) :: rest) = .throws .badAlloc := by
  obtain ⟨q0, e0⟩ := freeLoop_ok (q := Buf.init α sz) (l := []) (Buf.init α sz).rd 18446744073709551616 (rep_init sz) (by simp)
  have hu : u64 (sz * c.n) = sz * c.n := Nat.mod_eq_of_lt h64
  have hd : (dbg && decide (c.n < 2)) = false := by
    have : ¬ c.n < 2 := by omega
    simp [this]
  have hn : ¬ sz * c.n ≤ c.avail := by omega
  rw [Buf.rounds, Buf.conf, hd, e0, Outcome.bind_ok, hu]
  simp only [Bool.false_eq_true, if_false, if_neg hn]
  rfl

example : (Buf.init Nat 64).rounds false 64 7 [(⟨100, false, 6399⟩, [.write 1])] = .throws .badAlloc :=
  C128_no_memory false 64 7 _ ⟨100, false, 6399⟩ (by decide) (by decide) (by decide) []

/-- **C128** In a build with assertions, sizes 0 and 1 abort. -/
theorem C128_too_small (sz : Nat) (d : α) (q : Buf α) (c : Conf) (h : c.n < 2) : q.conf true sz d c = .throws .assertion := by
  simp [Buf.conf, h]

/-- **C128 is false of the code (1)**: only the low 32 bits of the configured size are used. A buffer configured
for `n ≥ 2^32` elements takes the memory for `n` of them (`sz * n` bytes) and has `n mod 2^32 - 1` places. -/
theorem C128_truncated_counterexample (dbg : Bool) (sz : Nat) (d : α) (c : Conf) (ops : List (Op α))
    (h2 : 2 ≤ c.n % 4294967296) (hs : c.n % 4294967296 < 2147483648) (h64 : sz * c.n < 18446744073709551616)
    (ha : sz * c.n ≤ c.avail) (hv : Valid (c.n % 4294967296 - 1) [] ops) :
    (Buf.init α sz).rounds dbg sz d [(c, ops)] = .ok [(specRun (c.n % 4294967296 - 1) [] ops).2] := by
  obtain ⟨q1, e1, h1, s1⟩ := conf_ok (dbg := dbg) d (rep_init sz) c h2 hs h64 ha
  obtain ⟨q2, e2, h2, -⟩ := run_abs (dbg := dbg) h1 ops (by rw [s1]; exact hv)
  rw [Buf.rounds, e1, Outcome.bind_ok, e2, Outcome.bind_ok, s1]
  rfl

/-- Configured for `2^32 + 2` elements of 16 bytes: the second of two elements is refused. -/
example : (Buf.init Nat 16).rounds true 16 7 [(⟨4294967298, false, 68719476768⟩, [.write 1, .write 2, .capacity])] =
    .ok [[.flag true, .flag false, .num 1]] :=
  C128_truncated_counterexample true 16 7 ⟨4294967298, false, 68719476768⟩ _ (by decide) (by decide) (by decide) (by decide)
    (by simp [Valid])

/-- **C128 is false of the code (2)**: the number of bytes is computed modulo `2^64`. A size whose product with the
size of an element (5568 bytes: a WIB superchunk, include/readout/ReadoutTypes.hpp l.82) passes `2^64` by less
than one element is accepted when those few bytes can be had, and the first payload is written outside. -/
theorem C128_bytes_counterexample (dbg : Bool) (d a : α) (avail : Nat) (h : 5312 ≤ avail) :
    (Buf.init α 5568).rounds dbg 5568 d [(⟨3312992829330021, false, avail⟩, [.write a])] = .ub .outOfBounds := by
  obtain ⟨sz, hz⟩ : ∃ sz, sz = 5568 := ⟨_, rfl⟩
  obtain ⟨n, hn⟩ : ∃ n, n = 3312992829330021 := ⟨_, rfl⟩
  obtain ⟨q0, e0⟩ := freeLoop_ok (q := Buf.init α sz) (l := []) (Buf.init α sz).rd 18446744073709551616 (rep_init sz) (by simp)
  have hu : u64 (sz * n) = 5312 := by rw [hz, hn]; rfl
  have hm : u32 n = 1086083685 := by rw [hn]; rfl
  have hd : (dbg && decide (n < 2)) = false := by
    have : ¬ n < 2 := by omega
    simp [this]
  have hc : (Buf.init α sz).conf dbg sz d ⟨n, false, avail⟩ = .ok ⟨5312, 1086083685, fun _ => none, 0, 0, 0⟩ := by
    rw [Buf.conf, hd, e0, Outcome.bind_ok, hu, if_pos h, hm]
    rfl
  rw [← hz, ← hn, Buf.rounds, hc, Outcome.bind_ok]
  have hw : (⟨5312, 1086083685, fun _ => none, 0, 0, 0⟩ : Buf α).write sz a = .ub .outOfBounds := by
    have h1 : (⟨5312, 1086083685, fun _ => none, 0, 0, 0⟩ : Buf α).next 0 = 1 := rfl
    have h2 : (⟨5312, 1086083685, fun _ => none, 0, 0, 0⟩ : Buf α).inside sz 0 = false := by rw [hz]; rfl
    rw [Buf.write, h1, if_pos (by simp only; decide), Buf.construct, h2]
    rfl
  rw [Buf.run, Buf.step, hw]
  rfl

/-- **C128 is false of the code (3)**: without assertions, size 0 is accepted; the first element is written outside
of the empty block. -/
theorem C128_zero_counterexample (sz : Nat) (hz : 1 ≤ sz) (d a : α) (avail : Nat) :
    (Buf.init α sz).rounds false sz d [(⟨0, false, avail⟩, [.write a])] = .ub .outOfBounds := by
  obtain ⟨q0, e0⟩ := freeLoop_ok (q := Buf.init α sz) (l := []) (Buf.init α sz).rd 18446744073709551616 (rep_init sz) (by simp)
  have hi : ¬ sz ≤ 0 := by omega
  rw [Buf.rounds, Buf.conf, e0]
  simp [u64, u32, Buf.run, Buf.step, Buf.write, Buf.next, Buf.construct, Buf.inside, show sz ≠ 0 by omega]

/-- **C128 is false of the code (4)**: without assertions, size 1 is accepted; every element is refused. -/
theorem C128_one_counterexample (sz : Nat) (h64 : sz < 18446744073709551616) (d : α) (avail : Nat) (ha : sz ≤ avail)
    (as : List α) :
    (Buf.init α sz).rounds false sz d [(⟨1, false, avail⟩, as.map .write)] = .ok [as.map fun _ => .flag false] := by
  obtain ⟨q0, e0⟩ := freeLoop_ok (q := Buf.init α sz) (l := []) (Buf.init α sz).rd 18446744073709551616 (rep_init sz) (by simp)
  have hu : u64 sz = sz := Nat.mod_eq_of_lt h64
  have H : ∀ q : Buf α, q.size = 1 → q.rd = 0 → q.wr = 0 →
      ∃ q', q.run false sz (as.map .write) = .ok (q', as.map fun _ => .flag false) := by
    induction as with
    | nil => intro q _ _ _; exact ⟨q, rfl⟩
    | cons a as ih =>
      intro q h1 h2 h3
      obtain ⟨q', e'⟩ := ih { q with overflow := q.overflow + 1 } h1 h2 h3
      have hn : q.next q.wr = q.rd := by simp [Buf.next, u32, h1, h2, h3]
      refine ⟨q', ?_⟩
      rw [List.map_cons, Buf.run]
      simp only [Buf.step, Buf.write, hn, ne_eq, not_true, if_false, Outcome.bind_ok, e', List.map_cons]
  obtain ⟨q', e'⟩ := H ⟨sz, 1, fun _ => none, 0, 0, (Buf.init α sz).overflow⟩ rfl rfl rfl
  rw [Buf.rounds, Buf.conf, e0]
  simp [hu, ha, u32, e', Buf.rounds]

/- Sizes from `2^31` -/

theorem run_append {dbg : Bool} {sz : Nat} {q q' : Buf α} {o1 o2 : List (Op α)} {r1 : List (Res α)}
    (h : q.run dbg sz o1 = .ok (q', r1)) (w : UB) (h2 : q'.run dbg sz o2 = .ub w) : q.run dbg sz (o1 ++ o2) = .ub w := by
  induction o1 generalizing q r1 with
  | nil => cases h; exact h2
  | cons op ops ih =>
    rw [Buf.run] at h
    rw [List.cons_append, Buf.run]
    cases hs : q.step dbg sz op with
    | ub _ => rw [hs] at h; cases h
    | throws _ => rw [hs] at h; cases h
    | ok r =>
      rw [hs, Outcome.bind_ok] at h
      cases hr : r.1.run dbg sz ops with
      | ub _ => rw [hr] at h; cases h
      | throws _ => rw [hr] at h; cases h
      | ok s =>
        rw [hr] at h
        cases h
        rw [Outcome.bind_ok, ih hr]
        rfl

/-- Writing without wrapping around. -/
theorem run_writes (dbg : Bool) (sz : Nat) (a : α) (q : Buf α) (m : Nat) (hs : q.size < 4294967296) (hb : sz * q.size ≤ q.bytes)
    (hr : q.rd ≤ q.wr) (hm : q.wr + m < q.size) (hd : ∀ i, q.wr ≤ i → q.slots i = none) :
    ∃ q' rs, q.run dbg sz (List.replicate m (.write a)) = .ok (q', rs) ∧ q'.size = q.size ∧ q'.bytes = q.bytes ∧
      q'.rd = q.rd ∧ q'.wr = q.wr + m ∧ ∀ i, q.wr + m ≤ i → q'.slots i = none := by
  induction m generalizing q with
  | zero => exact ⟨q, [], rfl, rfl, rfl, rfl, rfl, hd⟩
  | succ m ih =>
    have hlt : q.wr < q.size := by omega
    have hn : q.next q.wr = q.wr + 1 := by rw [next_of hs hlt, nextIdx, if_neg (by omega)]
    have hne : q.next q.wr ≠ q.rd := by omega
    have hw : q.write sz a = .ok ({ q with slots := fun j => if j = q.wr then some a else q.slots j, wr := q.wr + 1 }, true) := by
      rw [Buf.write, if_pos hne, Buf.construct, inside_of hb hlt, if_pos rfl, hd _ (Nat.le_refl _)]
      simp only [Outcome.bind_ok, hn]
    obtain ⟨q', rs, e, h1, h2, h3, h4, h5⟩ := ih { q with slots := fun j => if j = q.wr then some a else q.slots j, wr := q.wr + 1 }
      hs hb (by simp only; omega) (by simp only; omega) (by
        intro i hi
        simp only at hi ⊢
        rw [if_neg (by omega)]
        exact hd i (by omega))
    refine ⟨q', .flag true :: rs, ?_, h1, h2, h3, by rw [h4]; simp only; omega, fun i hi => h5 i (by simp only; omega)⟩
    rw [List.replicate_succ, Buf.run]
    simp only [Buf.step, hw, Outcome.bind_ok, e]

theorem fill_run {dbg : Bool} {sz : Nat} {d : α} {q q' : Buf α} {m : Nat} {rs : List (Res α)}
    (h : q.run dbg sz (List.replicate m (.write d)) = .ok (q', rs)) : q.fill sz d m = .ok q' := by
  induction m generalizing q rs with
  | zero => cases h; rfl
  | succ m ih =>
    rw [List.replicate_succ, Buf.run] at h
    rw [Buf.fill]
    simp only [Buf.step] at h
    cases hw : q.write sz d with
    | ub _ => rw [hw] at h; cases h
    | throws _ => rw [hw] at h; cases h
    | ok r =>
      rw [hw, Outcome.bind_ok, Outcome.bind_ok] at h
      cases hr : r.1.run dbg sz (List.replicate m (.write d)) with
      | ub _ => rw [hr] at h; cases h
      | throws _ => rw [hr] at h; cases h
      | ok s =>
        rw [hr] at h
        cases h
        rw [Outcome.bind_ok]
        exact ih hr

theorem occ_high (q : Buf α) (h1 : 2147483648 ≤ q.size) (h2 : q.size < 4294967296) (hr : q.rd = 0)
    (hw : 2147483648 ≤ q.wr ∧ q.wr < q.size ∧ q.wr + q.size < 6442450944) : q.occupancy = .ub .overflow := by
  have e1 : toInt q.wr = (q.wr : Int) - 4294967296 := by rw [toInt, if_neg (by omega)]
  have e2 : toInt q.size = (q.size : Int) - 4294967296 := by rw [toInt, if_neg (by omega)]
  have e3 : toInt q.rd = 0 := by rw [hr]; rfl
  rw [Buf.occupancy, e1, e2, e3, int_of (by omega) (by omega), Outcome.bind_ok, if_pos (by omega), int, if_neg (by omega)]
  rfl

/-- **C128 is false of the code (5)**: from `2^31` on, `occupancy` overflows `int`. For every such size below `2^32`
there are calls that a queue would answer, after which `occupancy` is undefined. -/
theorem C128_int_counterexample (dbg : Bool) (sz : Nat) (d a : α) (c : Conf) (hp : c.prealloc = false)
    (h1 : 2147483648 ≤ c.n) (h2 : c.n < 4294967296) (h64 : sz * c.n < 18446744073709551616) (ha : sz * c.n ≤ c.avail) :
    ∃ ops : List (Op α), (∀ op ∈ ops, op = .write a ∨ op = .read ∨ op = .occupancy) ∧ 
      (Buf.init α sz).rounds dbg sz d [(c, ops)] = .ub .overflow := by
  obtain ⟨q0, e0⟩ := freeLoop_ok (q := Buf.init α sz) (l := []) (Buf.init α sz).rd 18446744073709551616 (rep_init sz) (by simp)
  have hu : u64 (sz * c.n) = sz * c.n := Nat.mod_eq_of_lt h64
  have hm : u32 c.n = c.n := Nat.mod_eq_of_lt h2
  have hd : (dbg && decide (c.n < 2)) = false := by
    have : ¬ c.n < 2 := by omega
    simp [this]
  have hc : (Buf.init α sz).conf dbg sz d c = .ok ⟨sz * c.n, c.n, fun _ => none, 0, 0, 0⟩ := by
    rw [Buf.conf, hd, e0, Outcome.bind_ok, hu, if_pos ha, hp, hm]
    rfl
  suffices H : ∃ ops : List (Op α), (∀ op ∈ ops, op = .write a ∨ op = .read ∨ op = .occupancy) ∧
      (⟨sz * c.n, c.n, fun _ => none, 0, 0, 0⟩ : Buf α).run dbg sz ops = .ub .overflow by
    obtain ⟨ops, ho, e⟩ := H
    exact ⟨ops, ho, by rw [Buf.rounds, hc, Outcome.bind_ok, e]; rfl⟩
  obtain ⟨N, hN⟩ : ∃ N, N = 2147483648 := ⟨_, rfl⟩
  by_cases h : c.n = N
  · -- one element written and removed; then `N - 1` written: the write index is back at 0, the read index at 1
    obtain ⟨q1, e1, r1⟩ : ∃ q1, (⟨sz * c.n, c.n, fun _ => none, 0, 0, 0⟩ : Buf α).run dbg sz [.write a, .read] =
        .ok (q1, [.flag true, .value (some a)]) ∧
        q1 = ⟨sz * c.n, c.n, fun j => if j = 0 then none else if j = 0 then some a else none, 1, 1, 0⟩ := by
      have hin : ∀ s r w o, (⟨sz * c.n, c.n, s, r, w, o⟩ : Buf α).inside sz 0 = true := fun s r w o =>
        inside_of (Nat.le_refl _) (by simp only; omega)
      have hnx : ∀ s r w o, (⟨sz * c.n, c.n, s, r, w, o⟩ : Buf α).next 0 = 1 := fun s r w o => by
        rw [next_of h2 (by simp only; omega), nextIdx, if_neg (by simp only; omega)]
      refine ⟨_, ?_, rfl⟩
      simp [Buf.run, Buf.step, Buf.write, Buf.read, Buf.construct, Buf.load, Buf.destroy, hin, hnx]
    obtain ⟨q', rs, e, w1, w2, w3, w4, w5⟩ := run_writes dbg sz a q1 (N - 2) (by rw [r1]; exact h2)
      (by rw [r1]; exact Nat.le_refl _) (by rw [r1]; exact Nat.le_refl _) (by rw [r1]; simp only; omega)
      (by rw [r1]; intro i hi; simp only at hi ⊢; split <;> simp_all)
    rw [r1] at w1 w2 w3 w4 w5
    simp only at w1 w2 w3 w4 w5
    have hw4 : q'.wr = c.n - 1 := by omega
    have hn : q'.next q'.wr = 0 := by
      rw [next_of (by omega) (by omega), nextIdx, if_pos (by omega)]
    have hw : q'.write sz a = .ok ({ q' with slots := fun j => if j = q'.wr then some a else q'.slots j, wr := 0 }, true) := by
      rw [Buf.write, if_pos (by rw [hn, w3]; decide), Buf.construct, inside_of (by rw [w1, w2]; exact Nat.le_refl _) (by omega),
        if_pos rfl, w5 _ (by omega)]
      simp only [Outcome.bind_ok, hn]
    have ho : (⟨q'.bytes, q'.size, fun j => if j = q'.wr then some a else q'.slots j, q'.rd, 0, q'.overflow⟩ : Buf α).occupancy =
        .ub .overflow := by
      simp only [Buf.occupancy, w1, w3, h, hN]
      rfl
    refine ⟨[.write a, .read] ++ (List.replicate (N - 2) (.write a) ++ [.write a, .occupancy]), ?_,
      run_append e1 _ (run_append e _ ?_)⟩
    · intro op ho
      rcases List.mem_append.1 ho with h | h
      · rcases List.mem_cons.1 h with h | h
        · exact .inl h
        · simp at h; exact .inr (.inl h)
      · rcases List.mem_append.1 h with h | h
        · exact .inl (List.eq_of_mem_replicate h)
        · rcases List.mem_cons.1 h with h | h
          · exact .inl h
          · simp at h; exact .inr (.inr h)
    · rw [Buf.run]
      simp only [Buf.step, hw, Outcome.bind_ok]
      rw [Buf.run]
      simp only [Buf.step, ho, Outcome.bind_ub]
  · obtain ⟨q', rs, e, w1, w2, w3, w4, -⟩ := run_writes dbg sz a ⟨sz * c.n, c.n, fun _ => none, 0, 0, 0⟩ N h2
      (Nat.le_refl _) (Nat.le_refl _) (by simp only; omega) (fun _ _ => rfl)
    refine ⟨List.replicate N (.write a) ++ [.occupancy], ?_, run_append e _ ?_⟩
    · intro op ho
      rcases List.mem_append.1 ho with h | h
      · exact .inl (List.eq_of_mem_replicate h)
      · simp at h; exact .inr (.inr h)
    · simp only [Nat.zero_add] at w1 w3 w4
      rw [Buf.run]
      simp only [Buf.step, occ_high q' (by omega) (by omega) w3 (by omega), Outcome.bind_ub]

example : ∃ ops : List (Op Nat), (∀ op ∈ ops, op = .write 1 ∨ op = .read ∨ op = .occupancy) ∧
    (Buf.init Nat 80).rounds false 80 0 [(⟨2147483648, false, 171798691840⟩, ops)] = .ub .overflow :=
  C128_int_counterexample false 80 0 1 ⟨2147483648, false, 171798691840⟩ rfl (by decide) (by decide) (by decide) (by decide)

/-- **C128 is false of the code (6)**: with preallocation, `conf` itself does this for sizes above `2^31` (up to
`3 * 2^30`; beyond, the `int`s wrap into a wrong number instead). -/
theorem C128_prealloc_counterexample (dbg : Bool) (sz : Nat) (d : α) (c : Conf) (hp : c.prealloc = true)
    (h1 : 2147483648 < c.n) (h2 : c.n ≤ 3221225472) (h64 : sz * c.n < 18446744073709551616) (ha : sz * c.n ≤ c.avail) :
    (Buf.init α sz).conf dbg sz d c = .ub .overflow := by
  obtain ⟨q0, e0⟩ := freeLoop_ok (q := Buf.init α sz) (l := []) (Buf.init α sz).rd 18446744073709551616 (rep_init sz) (by simp)
  have hu : u64 (sz * c.n) = sz * c.n := Nat.mod_eq_of_lt h64
  have hm : u32 c.n = c.n := Nat.mod_eq_of_lt (by omega)
  have hd : (dbg && decide (c.n < 2)) = false := by
    have : ¬ c.n < 2 := by omega
    simp [this]
  have hcap : (⟨sz * c.n, c.n, fun _ => none, 0, 0, (Buf.init α sz).overflow⟩ : Buf α).capacity = c.n - 1 :=
    capacity_of (show 1 ≤ c.n by omega) (by simp only; omega)
  obtain ⟨q', rs, e, w1, w2, w3, w4, -⟩ := run_writes dbg sz d ⟨sz * c.n, c.n, fun _ => none, 0, 0, (Buf.init α sz).overflow⟩ (c.n - 1) (by simp only; omega)
    (Nat.le_refl _) (Nat.le_refl _) (by simp only; omega) (fun _ _ => rfl)
  simp only [Nat.zero_add] at w1 w3 w4
  rw [Buf.conf, hd, e0, Outcome.bind_ok, hu, if_pos ha, hp, hm]
  simp only [Bool.false_eq_true, if_false, if_true, hcap]
  rw [fill_run e, Outcome.bind_ok, Buf.flush, occ_high q' (by omega) (by omega) w3 (by omega)]
  rfl

example : (Buf.init Nat 80).conf true 80 0 ⟨3000000000, true, 240000000000⟩ = .ub .overflow :=
  C128_prealloc_counterexample true 80 0 ⟨3000000000, true, 240000000000⟩ rfl (by decide) (by decide) (by decide) (by decide)

end Verif.Words
