import Verif.Unpack2Model
/- Property C123: the fast unpacking of WIB2 frames. -/
namespace Verif.Unpack2

/-! ### Specification -/

/-- The samples of a frame are 14-bit numbers, one after the other, from the least significant bit of the first word on.
Sample `c` of the frame whose samples begin at word `p`: fourteen bits from bit `14 * c` on. -/
def sample (w : Nat → BitVec 32) (p c : Nat) : BitVec 14 :=
  (w (p + 14 * c / 32 + 1) ++ w (p + 14 * c / 32)).extractLsb' (14 * c % 32) 14

/-- Where the samples of a group of sixteen are put: the ninth place has the last one. -/
def place (i : Nat) : Nat := [0, 1, 2, 3, 4, 5, 6, 7, 15, 8, 9, 10, 11, 12, 13, 14].getD i 0

/-! ### One register -/

/-- The bits of a sample. -/
theorem sample_bit (w : Nat → BitVec 32) (p c j : Nat) :
    (sample w p c).getLsbD j = (decide (j < 14) && (w (p + (14 * c + j) / 32)).getLsbD ((14 * c + j) % 32)) := by
  rw [sample, BitVec.getLsbD_extractLsb']
  by_cases hj : j < 14
  · rw [BitVec.getLsbD_append]
    by_cases h : 14 * c % 32 + j < 32
    · have e1 : (14 * c + j) / 32 = 14 * c / 32 := by omega
      have e2 : (14 * c + j) % 32 = 14 * c % 32 + j := by omega
      simp [h, hj, e1, e2]
    · have e1 : p + (14 * c + j) / 32 = p + 14 * c / 32 + 1 := by omega
      have e2 : (14 * c + j) % 32 = 14 * c % 32 + j - 32 := by omega
      rw [e1, e2]
      simp [h, hj]
  · simp [hj]

theorem reg_word (w : V) : ∀ k, k < 8 →
    ((unpackReg w k).truncate 16 = (sample w 0 (place (2 * k))).zeroExtend 16) ∧
    ((unpackReg w k >>> 16).truncate 16 = (sample w 0 (place (2 * k + 1))).zeroExtend 16) := by
  intro k hk
  have hc : k = 0 ∨ k = 1 ∨ k = 2 ∨ k = 3 ∨ k = 4 ∨ k = 5 ∨ k = 6 ∨ k = 7 := by omega
  rcases hc with h | h | h | h | h | h | h | h <;> subst h <;>
    refine ⟨?_, ?_⟩ <;>
    simp only [unpackReg, vor, vand, vandnot, permute, sllv, srlv, set, place, List.getD_cons_zero,
      List.getD_cons_succ, Nat.reduceSub, Nat.reduceMod, Nat.reduceMul, Nat.reduceAdd, Nat.zero_add]
  all_goals
    apply BitVec.eq_of_getLsbD_eq
    intro j hj
    rw [show ∀ (x : BitVec 14), (x.zeroExtend 16).getLsbD j = x.getLsbD j from fun x => by simp [hj], sample_bit]
    have hc : j = 0 ∨ j = 1 ∨ j = 2 ∨ j = 3 ∨ j = 4 ∨ j = 5 ∨ j = 6 ∨ j = 7 ∨ j = 8 ∨ j = 9 ∨ j = 10 ∨ j = 11 ∨ j = 12 ∨
      j = 13 ∨ j = 14 ∨ j = 15 := by omega
    rcases hc with h | h | h | h | h | h | h | h | h | h | h | h | h | h | h | h <;> subst h <;>
      simp

/-- Sixteen samples take seven words: the samples of group `g` begin at word `7 * g`. -/
theorem sample_group (w : Nat → BitVec 32) (p g c : Nat) :
    sample w p (16 * g + c) = sample (fun i => w (p + 7 * g + i)) 0 c := by
  have h1 : 14 * (16 * g + c) / 32 = 7 * g + 14 * c / 32 := by omega
  have h2 : 14 * (16 * g + c) % 32 = 14 * c % 32 := by omega
  simp only [sample, h1, h2, Nat.zero_add, Nat.add_assoc]

/-! ### The frame -/

theorem loop_eq (m : Mem) (p : Nat) : ∀ (k i : Nat) (ret : Nat → V), i + k = 16 → p + 113 ≤ m.size →
    unpackLoop m p k i ret =
      .ok (fun j => if i ≤ j ∧ j < 16 then unpackReg (fun x => m.word (p + 7 * j + x)) else ret j)
  | 0, i, ret, h, _ => by
    have : ∀ j, ¬ (i ≤ j ∧ j < 16) := by intro j; omega
    simp [unpackLoop, this]
  | k + 1, i, ret, h, hs => by
    have hl : load m (p + 7 * i) = .ok (fun x => m.word (p + 7 * i + x)) := by
      rw [load, if_pos (by omega)]
    rw [unpackLoop, hl, Outcome.bind_ok, loop_eq m p k (i + 1) _ (by omega) hs]
    congr 1
    funext j
    by_cases hj : j = i
    · subst hj
      rw [if_neg (by omega), if_pos rfl, if_pos (by omega)]
    · by_cases h1 : i ≤ j ∧ j < 16
      · rw [if_pos (by omega), if_pos h1]
      · rw [if_neg (by omega), if_neg h1, if_neg hj]

/-- **C123** Whatever the words of a frame are: the unpacked registers hold, as sixteen-bit numbers below 2^14, all its 256
samples, each once, at the places the test program compares; the words read are the 112 with samples and the one after
them. -/
theorem C123_unpack (m : Mem) (p : Nat) (ret0 : Nat → V) (h : p + 113 ≤ m.size) :
    ∃ r, unpack m p ret0 = .ok r ∧
      ∀ i, i < 256 → uint16 r i = (sample m.word p (16 * (i / 16) + place (i % 16))).zeroExtend 16 := by
  refine ⟨_, loop_eq m p 16 0 ret0 rfl h, ?_⟩
  intro i hi
  have hw := reg_word (fun x => m.word (p + 7 * (i / 16) + x)) (i % 16 / 2) (by omega)
  rw [sample_group]
  simp only [uint16]
  rw [if_pos (by omega)]
  by_cases h2 : i % 2 = 0
  · have e : 2 * (i % 16 / 2) = i % 16 := by omega
    rw [e] at hw
    rw [h2]
    simpa using hw.1
  · have h3 : i % 2 = 1 := by omega
    have e : 2 * (i % 16 / 2) + 1 = i % 16 := by omega
    rw [e] at hw
    rw [h3]
    exact hw.2

/-- **C123 (every sample)** Each of the 256 samples is at exactly one place. -/
theorem C123_places : ∀ c, c < 256 → ∃ i, i < 256 ∧ 16 * (i / 16) + place (i % 16) = c ∧
    ∀ j, j < 256 → 16 * (j / 16) + place (j % 16) = c → j = i := by
  intro c hc
  have key : ∀ x, x < 16 → ∃ y, y < 16 ∧ place y = x ∧ ∀ z, z < 16 → place z = x → z = y := by decide
  have hp : ∀ z, z < 16 → place z < 16 := by decide
  obtain ⟨y, h1, h2, h3⟩ := key (c % 16) (by omega)
  refine ⟨16 * (c / 16) + y, by omega, ?_, ?_⟩
  · have e1 : (16 * (c / 16) + y) / 16 = c / 16 := by omega
    have e2 : (16 * (c / 16) + y) % 16 = y := by omega
    rw [e1, e2, h2]; omega
  · intro j hj he
    have := hp (j % 16) (by omega)
    have hz := h3 (j % 16) (by omega) (by omega)
    omega

/-- **C123 is false of the code at the end of memory**: a frame of which the words with samples are the last of the allocated
memory is read past its end; a word has to follow, as the trailer of the WIB2 frame does. -/
theorem C123_overread_counterexample (w : Nat → BitVec 32) (p : Nat) (ret0 : Nat → V) :
    unpack ⟨p + 112, w⟩ p ret0 = .ub .outOfBounds := by
  have key : ∀ (k i : Nat) (ret : Nat → V), i + k = 16 → 0 < k → unpackLoop ⟨p + 112, w⟩ p k i ret = .ub .outOfBounds := by
    intro k
    induction k with
    | zero => intro i ret _ h; omega
    | succ k ih =>
      intro i ret h _
      rw [unpackLoop]
      by_cases hk : k = 0
      · have : load ⟨p + 112, w⟩ (p + 7 * i) = .ub .outOfBounds := by
          rw [load, if_neg (by simp only; omega)]
        rw [this]; rfl
      · have : load ⟨p + 112, w⟩ (p + 7 * i) = .ok (fun x => w (p + 7 * i + x)) := by
          rw [load, if_pos (by simp only; omega)]
        rw [this, Outcome.bind_ok]
        exact ih _ _ (by omega) (by omega)
  exact key 16 0 ret0 rfl (by omega)

/-- Non-vacuity: a frame of 117 words with four words of header; the third sample of the first group is made of bits of two
words. -/
example : (4 : Nat) + 113 ≤ (⟨117, fun _ => 0⟩ : Mem).size := by decide

example : sample (fun i => if i = 4 then 0xf0000000#32 else 0x000003ff#32) 4 2 = 0x3fff#14 := by decide

end Verif.Unpack2
