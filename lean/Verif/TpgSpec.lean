import Verif.TpgModel

/-!
# Specification vocabulary for the hit finder

Independent of the implementation: runs of a Boolean pattern, and exact (unbounded) pedestal
tracking.
-/

namespace Verif.Tpg

/-- Length of the run of `true` that ends just before position `e`. -/
def runLen (over : Nat → Bool) : Nat → Nat
  | 0 => 0
  | e + 1 => if over e then runLen over e + 1 else 0

/-- Sum of `f` over that run. -/
def runSum (over : Nat → Bool) (f : Nat → Int) : Nat → Int
  | 0 => 0
  | e + 1 => if over e then runSum over f e + f e else 0

/-- Position `e` is the first position after a run. -/
def ends (over : Nat → Bool) (e : Nat) : Bool := decide (0 < e) && over (e - 1) && !over e

/-- The run before `e` is all `true`, and cannot be extended to the left. -/
theorem runLen_maximal (over : Nat → Bool) (e : Nat) :
    runLen over e ≤ e ∧ (∀ k, e - runLen over e ≤ k → k < e → over k = true)
      ∧ (runLen over e = e ∨ over (e - runLen over e - 1) = false) := by
  induction e with
  | zero => exact ⟨Nat.le_refl _, fun k _ h => absurd h (by omega), Or.inl rfl⟩
  | succ e ih =>
    obtain ⟨h1, h2, h3⟩ := ih
    by_cases c : over e = true
    · have r : runLen over (e + 1) = runLen over e + 1 := by simp [runLen, c]
      rw [r]
      refine ⟨by omega, ?_, ?_⟩
      · intro k hk hk'
        by_cases ke : k = e
        · rw [ke]; exact c
        · exact h2 k (by omega) (by omega)
      · rcases h3 with h3 | h3
        · left; omega
        · right
          have : e + 1 - (runLen over e + 1) - 1 = e - runLen over e - 1 := by omega
          rw [this]; exact h3
    · have r : runLen over (e + 1) = 0 := by simp [runLen, c]
      rw [r]
      refine ⟨by omega, fun k hk hk' => absurd hk (by omega), Or.inr ?_⟩
      simpa using c

/-- Exact tracking of one estimate: the accumulator counts samples above minus samples below; eleven
more move the estimate by one. -/
def exactTrack (m s acc : Int) : Int × Int :=
  let a := if m < s then acc + 1 else if s < m then acc - 1 else acc
  if 10 < a then (m + 1, 0) else if a < -10 then (m - 1, 0) else (m, a)

/-- Estimates and accumulators of a channel. -/
structure Est where
  med : Int
  q25 : Int
  q75 : Int
  acc : Int
  acc25 : Int
  acc75 : Int
  deriving DecidableEq

/-- Exact tracking of the three estimates: the quartiles follow the samples on their side of the
median. -/
def Est.next (e : Est) (s : Int) : Est :=
  let lo := if s < e.med then exactTrack e.q25 s e.acc25 else (e.q25, e.acc25)
  let hi := if e.med < s then exactTrack e.q75 s e.acc75 else (e.q75, e.acc75)
  let mid := exactTrack e.med s e.acc
  ⟨mid.1, lo.1, hi.1, mid.2, lo.2, hi.2⟩

/-- The estimates after a sequence of samples, from pedestal `ped`. -/
def exactEst (ped : Int) (xs : List Int) : Est :=
  xs.foldl Est.next ⟨ped, ped - 3, ped + 3, 0, 0, 0⟩

/-- The pedestal-subtracted samples, capped at 511. -/
def residuals (ped : Int) (xs : List Int) (k : Nat) : Int :=
  min (xs.getD k 0 - (exactEst ped (xs.take (k + 1))).med) 511

/-- Exact filter output at sample `k`: weighted sum of the eight residuals before it (zero before the
start). -/
def exactFilter (taps : Nat → Int) (ped : Int) (xs : List Int) (k : Nat) : Int :=
  let r := fun j => if 8 ≤ k + j then residuals ped xs (k + j - 8) else 0
  taps 0 * r 0 + taps 1 * r 1 + taps 2 * r 2 + taps 3 * r 3 + taps 4 * r 4 + taps 5 * r 5
    + taps 6 * r 6 + taps 7 * r 7

/-- Exact interquartile range at sample `k`. -/
def exactSigma (ped : Int) (xs : List Int) (k : Nat) : Int :=
  (exactEst ped (xs.take (k + 1))).q75 - (exactEst ped (xs.take (k + 1))).q25

/-- The sample `k` is over threshold: the 16-bit filter output exceeds five times the interquartile
range (at most 102), in units of 1/64 ADC count. -/
def overAt (taps : Nat → Int) (ped : Int) (xs : List Int) (k : Nat) : Bool :=
  decide (5 * (64 * min (exactSigma ped xs k) 102) < w16 (exactFilter taps ped xs k))

/-- The charge sample `k` adds to a hit. -/
def chargeAt (taps : Nat → Int) (ped : Int) (xs : List Int) (k : Nat) : Int :=
  w16 (exactFilter taps ped xs k) / 64

/-- The hit that ends at sample `e` of the stream, with the time relative to sample `base`. -/
def hitAt (taps : Nat → Int) (ped : Int) (xs : List Int) (base e : Nat) : Hit :=
  ⟨e - base, (min 32767 (runSum (overAt taps ped xs) (chargeAt taps ped xs) e)).toNat,
    min 32767 (runLen (overAt taps ped xs) e)⟩

end Verif.Tpg
