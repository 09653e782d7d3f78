import Verif.RingModel
/-
Independent specification of the ring latency buffer: a bounded FIFO over lists,
and the representation relation used to connect the two.
-/
namespace Verif.Ring

/-- Specification state: stored elements oldest first, capacity, rejected writes. -/
structure Fifo (α : Type u) where
  cap : Nat
  items : List α
  rejected : Nat

/-- Specification of one call. -/
def Fifo.step {α : Type u} (f : Fifo α) : Op α → Fifo α × Res α
  | .write a =>
    if f.items.length < f.cap then ({ f with items := f.items ++ [a] }, .flag true)
    else ({ f with rejected := f.rejected + 1 }, .flag false)
  | .read =>
    match f.items with
    | [] => (f, .value none)
    | a :: rest => ({ f with items := rest }, .value (some a))
  | .pop x => ({ f with items := f.items.drop x }, .unit)
  | .flush => ({ f with items := [] }, .unit)

/-- Specification of a call sequence. -/
def Fifo.run {α : Type u} (f : Fifo α) : List (Op α) → Fifo α × List (Res α)
  | [] => (f, [])
  | op :: ops =>
    let r := f.step op
    let s := r.1.run ops
    (s.1, r.2 :: s.2)

/-- The caller's obligation: `pop(x)` is only called with `x` not above the number of
stored elements ("queue must not be empty", IterableQueueModel.hpp l.269). -/
def Fifo.Valid {α : Type u} (f : Fifo α) : List (Op α) → Prop
  | [] => True
  | op :: ops =>
    (match op with
     | .pop x => x ≤ f.items.length
     | _ => True) ∧ (f.step op).1.Valid ops

/-- Physical index of the `k`-th stored element. -/
def slotIdx (size rd k : Nat) : Nat := if rd + k < size then rd + k else rd + k - size

/-- `q` stores exactly the list `l` (oldest first), every other slot is raw storage. -/
structure Repr {α : Type u} (q : Ring α) (l : List α) : Prop where
  two : 2 ≤ q.size
  rdlt : q.rd < q.size
  len : l.length < q.size
  wreq : q.wr = slotIdx q.size q.rd l.length
  live : ∀ k a, l[k]? = some a → q.slots (slotIdx q.size q.rd k) = some a
  dead : ∀ i, i < q.size → (∀ k, k < l.length → i ≠ slotIdx q.size q.rd k) → q.slots i = none

end Verif.Ring
