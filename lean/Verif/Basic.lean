/-
Common vocabulary of the model: outcomes of C++ operations, with undefined
behaviour and exceptions as distinct results (never replaced by a default value).
-/
namespace Verif

/-- Kinds of undefined behaviour (or resource corruption) distinguished by the model. -/
inductive UB where
  | nullDeref        -- dereference of a null pointer
  | outOfBounds      -- access outside an allocated block
  | deadObject       -- access to an object outside its lifetime
  | overwriteLive    -- placement new over a live object (leaks it)
  | danglingBlock    -- use of a freed / never assigned block pointer
  | badFree          -- release with a routine not matching the allocation
  | divByZero        -- integer division or modulo by zero
  | overflow         -- signed integer overflow
  deriving DecidableEq, Repr

/-- Exceptions / aborts that the code raises deliberately. -/
inductive Exn where
  | assertion
  | badAlloc
  | configError
  | hang             -- a loop did not finish within the model's iteration bound
  | other
  deriving DecidableEq, Repr

/-- Result of running a piece of C++ code. -/
inductive Outcome (α : Type u) where
  | ok (a : α)
  | ub (why : UB)
  | throws (e : Exn)
  deriving DecidableEq, Repr

namespace Outcome

/-- Sequencing: undefined behaviour and exceptions end the computation. -/
def bind {α : Type u} {β : Type v} (x : Outcome α) (f : α → Outcome β) : Outcome β :=
  match x with
  | .ok a => f a
  | .ub w => .ub w
  | .throws e => .throws e

instance : Monad Outcome where
  pure := .ok
  bind := bind

@[simp] theorem bind_ok {α β : Type u} (a : α) (f : α → Outcome β) :
    (Bind.bind (Outcome.ok a) f : Outcome β) = f a := rfl
@[simp] theorem bind_ub {α β : Type u} (w : UB) (f : α → Outcome β) :
    (Bind.bind (Outcome.ub w : Outcome α) f : Outcome β) = .ub w := rfl
@[simp] theorem bind_throws {α β : Type u} (e : Exn) (f : α → Outcome β) :
    (Bind.bind (Outcome.throws e : Outcome α) f : Outcome β) = .throws e := rfl
@[simp] theorem pure_eq {α : Type u} (a : α) : (Pure.pure a : Outcome α) = .ok a := rfl

/-- The computation finished normally. -/
def IsOk {α : Type u} (x : Outcome α) : Prop := ∃ a, x = .ok a

/-- The computation hit undefined behaviour. -/
def IsUB {α : Type u} (x : Outcome α) : Prop := ∃ w, x = .ub w

end Outcome
end Verif
