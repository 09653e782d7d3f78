import Verif.ViewModel
import Verif.ExpandProps

/-!
# C133: views of expanded samples

The specification: the samples of a window are in messages, a message holds six rows (one per
register) of twelve ticks of sixteen channels.  `place` is that layout, with nothing taken from
the code.
-/

namespace Verif.View

open Verif.Expand

/-- Where the sample of channel `chan` at tick `tick` is: after the whole messages before it, the
rows of the registers before its own, the ticks of its message before its own. -/
def place (chan tick : Nat) : Nat := 1152 * (tick / 12) + 192 * (chan / 16) + 16 * (tick % 12) + chan % 16

/-- The window is a block that can exist. -/
def Fits (w : Window) : Prop := 2304 * w.numMessages < 2 ^ 64

theorem words_eq (w : Window) : w.words = 1152 * w.numMessages := by
  unfold Window.words collectionAdcsSize bytesPerRegister registersPerFrame framesPerMsg
  omega

theorem index16_eq (w : Window) (hf : Fits w) (chan tick : Nat) (hc : chan < 96)
    (ht : tick < 12 * w.numMessages) : index16 chan tick = place chan tick := by
  unfold Fits at hf
  have h1 : tick / 12 < w.numMessages := by omega
  have e1 : sz (chan / 16 * 16 * 12) = 192 * (chan / 16) := by unfold sz; omega
  have e2 : sz (tick / 12 * 2304) / 2 = 1152 * (tick / 12) := by
    unfold sz
    rw [Nat.mod_eq_of_lt (by omega)]
    omega
  unfold index16 place samplesPerRegister collectionAdcsSize bytesPerRegister registersPerFrame framesPerMsg
  dsimp only
  rw [e1, show 32 * 6 * 12 = 2304 from rfl, e2]
  unfold sz
  rw [Nat.mod_eq_of_lt (a := 192 * (chan / 16) + 16 * (tick % 12) + chan % 16) (by omega),
    Nat.mod_eq_of_lt (by omega)]
  omega

theorem index256_eq (w : Window) (hf : Fits w) (reg tick : Nat) (hr : reg < 6)
    (ht : tick < 12 * w.numMessages) :
    index256 6 reg tick = 72 * (tick / 12) + 12 * reg + tick % 12 := by
  unfold Fits at hf
  unfold index256 sz framesPerMsg
  omega

/-- C133: reading a sample of a window is defined, and reads the word where that sample is. -/
theorem C133_sample_partial (w : Window) (hf : Fits w) (chan tick : Nat) (hc : chan < 96)
    (ht : tick < 12 * w.numMessages) : get16 w chan tick = .ok (w.word (place chan tick)) := by
  unfold get16
  rw [index16_eq w hf chan tick hc ht, words_eq, if_pos]
  unfold place
  omega

/-- C133: the two views agree: the register of a channel, at any tick of the window, has the sample
of the channel in its entry. -/
theorem C133_views_agree_partial (w : Window) (hf : Fits w) (chan tick : Nat) (hc : chan < 96)
    (ht : tick < 12 * w.numMessages) :
    ∃ r, get256 6 w (chan / 16) tick = .ok r ∧ get16 w chan tick = .ok (r (chan % 16)) := by
  refine ⟨fun j => w.word (16 * index256 6 (chan / 16) tick + j), ?_, ?_⟩
  · unfold get256
    rw [if_pos]
    rw [index256_eq w hf _ tick (by omega) ht, words_eq]
    omega
  · rw [C133_sample_partial w hf chan tick hc ht, index256_eq w hf _ tick (by omega) ht]
    congr 2
    unfold place
    omega

/-- C133: every word of a window is the sample of exactly one channel at one tick. -/
theorem C133_every_word_once (w : Window) (i : Nat) (hi : i < w.words) :
    ∃ chan tick, (chan < 96 ∧ tick < 12 * w.numMessages ∧ place chan tick = i)
      ∧ ∀ chan' tick', chan' < 96 → tick' < 12 * w.numMessages → place chan' tick' = i →
        chan' = chan ∧ tick' = tick := by
  rw [words_eq] at hi
  unfold place
  refine ⟨16 * (i % 1152 / 192) + i % 16, 12 * (i / 1152) + i % 192 / 16, ⟨?_, ?_, ?_⟩, ?_⟩
  · omega
  · omega
  · omega
  · intro c t hc ht h
    omega

/-- C133: in a window filled with expanded messages, the sample of channel `chan` at tick `tick` is
the value, in frame `tick % 12` of message `tick / 12`, of the channel of the table. -/
theorem C133_expanded_partial (m : Mem) (hb : Bytes m.byte) (at_ : List Nat) (msgs : List (Nat → V))
    (hl : msgs.length = at_.length) (hf : Fits (window msgs))
    (hm : ∀ k, (h : k < at_.length) → ∃ coll0 ind0 ind,
      expandMessage m at_[k] coll0 ind0 = .ok (msgs[k]'(by omega), ind))
    (chan tick : Nat) (hc : chan < 96) (ht : tick / 12 < at_.length) :
    ∃ v : Nat, get16 (window msgs) chan tick = .ok v
      ∧ (v : Int) = adcValue (fun i => m.byte (at_[tick / 12] + 464 * (tick % 12) + i)) (collectionChannel chan).toNat := by
  have hn : (window msgs).numMessages = msgs.length := rfl
  refine ⟨_, C133_sample_partial _ hf chan tick hc (by omega), ?_⟩
  obtain ⟨coll0, ind0, ind, he⟩ := hm (tick / 12) ht
  have := (C39_superchunk m hb _ coll0 ind0 _ ind he (tick % 12) (chan % 16) (by omega) (by omega)).1
    (chan / 16) (by omega)
  rw [show 16 * (chan / 16) + chan % 16 = chan by omega] at this
  rw [← this]
  unfold window place
  dsimp only
  rw [show (1152 * (tick / 12) + 192 * (chan / 16) + 16 * (tick % 12) + chan % 16) / 1152 = tick / 12 by omega,
    show (1152 * (tick / 12) + 192 * (chan / 16) + 16 * (tick % 12) + chan % 16) % 1152 / 16
      = 12 * (chan / 16) + tick % 12 by omega,
    show (1152 * (tick / 12) + 192 * (chan / 16) + 16 * (tick % 12) + chan % 16) % 16 = chan % 16 by omega,
    List.getD_eq_getElem?_getD, List.getElem?_eq_getElem (by omega)]
  rfl

/-- A window of two messages, with words all different; the last tick of the last channel. -/
example : get16 ⟨2, fun i => i⟩ 95 23 = .ok 2303 ∧ Fits ⟨2, fun i => i⟩
    ∧ ∃ r, get256 6 ⟨2, fun i => i⟩ 5 23 = .ok r ∧ r 15 = 2303 :=
  ⟨by rfl, by unfold Fits; decide, _, rfl, rfl⟩

/-- Two messages from a block of three superchunks fill a window. -/
example : ∃ (m : Mem) (msgs : List (Nat → V)), Bytes m.byte ∧ msgs.length = 2 ∧ Fits (window msgs)
    ∧ ∀ k, (h : k < [0, 5568].length) → ∃ coll0 ind0 ind, ∃ h' : k < msgs.length,
      expandMessage m [0, 5568][k] coll0 ind0 = .ok (msgs[k], ind) := by
  let m : Mem := ⟨16704, fun i => (i * i + 3 * i) % 256⟩
  have e : ∀ p, p + 5576 ≤ 16704 → ∃ r, expandMessage m p (fun _ _ => 0) (fun _ _ => 0) = .ok r :=
    fun p hp => ⟨_, (expandMessage_eq _ _ _ _).trans (if_pos hp)⟩
  obtain ⟨⟨c0, i0⟩, h0⟩ := e 0 (by omega)
  obtain ⟨⟨c1, i1⟩, h1⟩ := e 5568 (by omega)
  refine ⟨m, [c0, c1], fun i => by dsimp only [m]; omega, rfl, by unfold Fits window; simp, fun k hk => ?_⟩
  match k, hk with
  | 0, _ => exact ⟨_, _, i0, by simp, h0⟩
  | 1, _ => exact ⟨_, _, i1, by simp, h1⟩

/-- C133 is false for channels past the last one: channel 96 is answered, with the sample of channel
0 twelve ticks later. -/
theorem C133_channel_counterexample : ∃ w, Fits w ∧ 2 ≤ w.numMessages
    ∧ ∃ v, get16 w 96 0 = .ok v ∧ get16 w 0 12 = .ok v :=
  ⟨⟨2, fun i => i⟩, by unfold Fits; decide, by decide, 1152, by rfl, by rfl⟩

/-- C133 is false for windows of other than six registers a frame, which the type allows: with the
ten of the induction wires the views disagree from the second message on. -/
theorem C133_registers_counterexample : ∃ w, Fits w ∧ ∃ r v,
    get256 10 w 0 12 = .ok r ∧ get16 w 0 12 = .ok v ∧ r 0 ≠ v :=
  ⟨⟨3, fun i => i⟩, by unfold Fits; decide, _, 1152, rfl, by rfl, by decide⟩

/-- C133 is false for the induction samples of ten registers: the last register of the first message
lies in the second. -/
theorem C133_induction_counterexample : ∃ w, Fits w ∧ ∃ r v,
    get256 10 w 6 0 = .ok r ∧ get16 w 0 12 = .ok v ∧ r 0 = v :=
  ⟨⟨2, fun i => i⟩, by unfold Fits; decide, _, 1152, rfl, by rfl, by decide⟩

/-- C133 is false for ticks past the window: nothing is checked, both views read out of bounds. -/
theorem C133_tick_counterexample (w : Window) (hf : 2304 * (w.numMessages + 1) < 2 ^ 64) (chan : Nat)
    (hc : chan < 96) : get16 w chan (12 * w.numMessages) = .ub .outOfBounds
      ∧ get256 6 w (chan / 16) (12 * w.numMessages) = .ub .outOfBounds := by
  have h := index16_eq ⟨w.numMessages + 1, w.word⟩ hf chan (12 * w.numMessages) hc (by dsimp only; omega)
  have h' := index256_eq ⟨w.numMessages + 1, w.word⟩ hf (chan / 16) (12 * w.numMessages) (by omega)
    (by dsimp only; omega)
  constructor
  · unfold get16
    rw [h, words_eq, if_neg]
    unfold place
    omega
  · unfold get256
    rw [h', words_eq, if_neg]
    omega

example : ∃ w : Window, 2304 * (w.numMessages + 1) < 2 ^ 64 ∧ get16 w 3 24 = .ub .outOfBounds :=
  ⟨⟨2, fun i => i⟩, by decide, by rfl⟩

/-! ## Register arrays -/

/-- C133 for register arrays: what is written as entry `j` of register `i` is read back there, as a
word and in the register, and no other word changes. -/
theorem C133_entry (a : Arr) (n i j val : Nat) (ha : a.length = 16 * n) (hi : i < n) (hj : j < 16)
    (hv : val < 65536) :
    ∃ b, a.setUint16At i j val = .ok b ∧ b.length = 16 * n
      ∧ b.uint16At i j = .ok val ∧ b.uint16 (16 * i + j) = .ok val
      ∧ (∃ r, b.ymm i = .ok r ∧ r[j]? = some val)
      ∧ ∀ i' j', i' < n → j' < 16 → (i', j') ≠ (i, j) → b.uint16At i' j' = a.uint16At i' j' := by
  have hlt : 16 * i + j < a.length := by omega
  refine ⟨a.set (16 * i + j) val, ?_, by simpa using ha, ?_, ?_,
    ⟨((a.set (16 * i + j) val).drop (16 * i)).take 16, ?_, ?_⟩, ?_⟩
  · unfold Arr.setUint16At
    rw [if_pos hlt, Nat.mod_eq_of_lt hv]
  · unfold Arr.uint16At
    rw [if_pos (by simpa using hlt), List.getD_eq_getElem?_getD, List.getElem?_set_self hlt]
    rfl
  · unfold Arr.uint16
    rw [if_pos (by simpa using hlt), List.getD_eq_getElem?_getD, List.getElem?_set_self hlt]
    rfl
  · unfold Arr.ymm
    rw [if_pos (by simp only [List.length_set]; omega)]
  · rw [List.getElem?_take_of_lt hj, List.getElem?_drop, List.getElem?_set_self hlt]
  · intro i' j' hi' hj' hne
    have : 16 * i + j ≠ 16 * i' + j' := fun h => hne (by
      have h1 : i' = i := by omega
      have h2 : j' = j := by omega
      rw [h1, h2])
    unfold Arr.uint16At
    rw [List.length_set, List.getD_eq_getElem?_getD, List.getElem?_set_ne this,
      List.getD_eq_getElem?_getD]

/-- C133 for register arrays: a register written is read back, as a register and word by word, and
the words of no other register change. -/
theorem C133_register (a : Arr) (n i : Nat) (val : List Nat) (ha : a.length = 16 * n) (hi : i < n)
    (hv : val.length = 16) :
    ∃ b, a.setYmm i val = .ok b ∧ b.length = 16 * n ∧ b.ymm i = .ok val
      ∧ (∀ j, (h : j < 16) → b.uint16At i j = .ok (val[j]'(by omega)))
      ∧ ∀ i' j', i' < n → j' < 16 → i' ≠ i → b.uint16At i' j' = a.uint16At i' j' := by
  have hlt : 16 * i + 16 ≤ a.length := by omega
  have hl : (a.take (16 * i)).length = 16 * i := by rw [List.length_take]; omega
  have hlen : (a.take (16 * i) ++ val ++ a.drop (16 * i + 16)).length = 16 * n := by
    simp only [List.length_append, List.length_take, List.length_drop]; omega
  refine ⟨a.take (16 * i) ++ val ++ a.drop (16 * i + 16), ?_, hlen, ?_, ?_, ?_⟩
  · unfold Arr.setYmm
    rw [if_pos hlt]
  · unfold Arr.ymm
    rw [if_pos (by omega), List.append_assoc, List.drop_left' hl, List.take_left' hv]
  · intro j hj
    unfold Arr.uint16At
    rw [if_pos (by omega), List.getD_eq_getElem?_getD, List.append_assoc,
      List.getElem?_append_right (by omega), hl, show 16 * i + j - 16 * i = j by omega,
      List.getElem?_append_left (by omega), List.getElem?_eq_getElem (by omega)]
    rfl
  · intro i' j' hi' hj' hne
    unfold Arr.uint16At
    rw [hlen, ha, List.getD_eq_getElem?_getD, List.getD_eq_getElem?_getD]
    congr 3
    rcases Nat.lt_or_gt_of_ne hne with h | h
    · rw [List.append_assoc, List.getElem?_append_left (by omega), List.getElem?_take_of_lt (by omega)]
    · rw [List.getElem?_append_right (by rw [List.length_append]; omega), List.length_append, hl, hv,
        List.getElem?_drop]
      congr 1
      omega

/-- Writing entry 3 of register 1 of two, then the whole register 0. -/
example : ∃ b c, Arr.setUint16At (List.replicate 32 7) 1 3 500 = .ok b ∧ b.uint16 19 = .ok 500
    ∧ b.setYmm 0 (List.range 16) = .ok c ∧ c.uint16At 0 15 = .ok 15 ∧ c.uint16At 1 3 = .ok 500 :=
  ⟨_, _, rfl, rfl, rfl, rfl, rfl⟩

/-- C133 is false for entries past the sixteenth of a register: entry 16 is entry 0 of the next. -/
theorem C133_entry_counterexample : ∃ a b : Arr, a.setUint16At 0 16 5 = .ok b
    ∧ a.uint16At 1 0 = .ok 0 ∧ b.uint16At 1 0 = .ok 5 :=
  ⟨List.replicate 32 0, _, rfl, rfl, rfl⟩

end Verif.View
