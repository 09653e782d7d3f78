import Verif.RawTpModel
import Verif.FormatProps
import Mathlib.Tactic.Linarith
import Mathlib.Tactic.Ring
import Mathlib.Data.Nat.Digits.Lemmas
/-
C129: fields of raw trigger primitives and what their printouts show.
-/
namespace Verif.RawTp

/-! ## Specification -/

/-- The declared bit fields of a header, word by word, in the order of declaration. -/
def headerDecl : List (List (HField × Nat)) :=
  [[(.flags, 13), (.slot, 3), (.wire, 8), (.fiber, 3), (.crate, 5)], [(.timestamp1, 32)], [(.timestamp2, 32)],
   [(.accumulator, 16), (.median, 16)], [(.padding1, 16), (.nhits, 16)], [(.padding3, 16), (.padding2, 16)]]

/-- The declared bit fields of a hit. -/
def dataDecl : List (List (DField × Nat)) :=
  [[(.endTime, 16), (.startTime, 16)], [(.peakTime, 16), (.peakAdc, 16)],
   [(.hitContinue, 1), (.tpFlags, 15), (.sumAdc, 16)]]

/-- Splitting a word into consecutive fields from the low end: what is left of the word is divided by each width. -/
def split {F : Type} : Nat → List (F × Nat) → List (F × Nat)
  | _, [] => []
  | x, (f, n) :: r => (f, x % 2 ^ n) :: split (x / 2 ^ n) r

/-- The contents of all fields of consecutive words. -/
def contents {F : Type} (w : Words) : Nat → List (List (F × Nat)) → List (F × Nat)
  | _, [] => []
  | i, l :: r => split (w i) l ++ contents w (i + 1) r

/-- The number that digits in base `b` stand for. -/
def read (b : Nat) (l : List Nat) : Nat := l.foldl (fun a d => a * b + d) 0

/-- The number a reader of a printout finds after a label, reading digits in base `b`. -/
def shown (o : Out) (b : Nat) (label : String) : Option Nat := (o.1.lookup label).map (read b)

/-- Every digit of a printout is below `b` after the label. -/
def wellFormed (o : Out) (b : Nat) (label : String) : Prop := ∀ l, o.1.lookup label = some l → l ≠ [] ∧ ∀ d ∈ l, d < b

/-- The labels of a header's fields. -/
def headerLabels : List (String × HField) :=
  [("flags", .flags), ("slot", .slot), ("wire", .wire), ("fiber", .fiber), ("crate", .crate), ("median", .median),
   ("accumulator", .accumulator), ("nhits", .nhits), ("padding_1", .padding1), ("padding_2", .padding2),
   ("padding_3", .padding3)]

/-- The labels of a hit's fields. -/
def dataLabels : List (String × DField) :=
  [("start_time", .startTime), ("end_time", .endTime), ("peak_adc", .peakAdc), ("peak_time", .peakTime),
   ("sum_adc", .sumAdc), ("flags", .tpFlags), ("hit_continue", .hitContinue)]

/-- What the field `f` of a header holds. -/
def heldH (w : Words) (f : HField) : Option Nat := (contents w 0 headerDecl).lookup f

/-- What the field `f` of a hit holds. -/
def heldD (w : Words) (f : DField) : Option Nat := (contents w 0 dataDecl).lookup f

/-- The base that a setting of the stream stands for. -/
def radix (b : Base) : Nat := if b = .hex then 16 else if b = .oct then 8 else 10

/-! ## Digits -/

theorem radix_eq (b : Base) : radix b = b.val := by cases b <;> rfl

theorem read_append (b : Nat) (l : List Nat) (d : Nat) : read b (l ++ [d]) = read b l * b + d := by
  simp [read, List.foldl_append]

theorem read_reverse (b : Nat) (l : List Nat) : read b l.reverse = Nat.ofDigits b l := by
  induction l with
  | nil => simp [read, Nat.ofDigits]
  | cons d r ih => rw [List.reverse_cons, read_append, ih, Nat.ofDigits_cons]; ring

theorem read_num (b : Base) (x : Nat) : read b.val (num b x) = x := by
  unfold num
  split
  · next h => subst h; simp [read]
  · rw [read_reverse, Nat.ofDigits_digits]

theorem num_digits (b : Base) (x : Nat) : num b x ≠ [] ∧ ∀ d ∈ num b x, d < b.val := by
  have hb : 1 < b.val := by cases b <;> decide
  unfold num
  split
  · refine ⟨by simp, ?_⟩
    intro d hd
    have : d = 0 := by simpa using hd
    omega
  · next h =>
    refine ⟨?_, ?_⟩
    · simpa [Nat.digits_eq_nil_iff_eq_zero] using h
    · intro d hd
      exact Nat.digits_lt_base hb (List.mem_reverse.mp hd)

theorem ofDigits_bits (n x : Nat) : Nat.ofDigits 2 ((List.range n).map fun i => x / 2 ^ i % 2) = x % 2 ^ n := by
  induction n with
  | zero => simp [Nat.mod_one]
  | succ n ih =>
    rw [List.range_succ, List.map_append, Nat.ofDigits_append, ih]
    simp only [List.map_cons, List.map_nil, Nat.ofDigits_singleton, List.length_map, List.length_range]
    rw [pow_succ, Nat.mod_mul]

theorem read_bits (n x : Nat) (h : x < 2 ^ n) : read 2 (bits n x) = x := by
  unfold bits
  rw [read_reverse, ofDigits_bits, Nat.mod_eq_of_lt h]

theorem bits_digits (n x : Nat) (hn : 0 < n) : bits n x ≠ [] ∧ ∀ d ∈ bits n x, d < 2 := by
  constructor
  · intro h
    have := congrArg List.length h
    simp [bits] at this
    omega
  · intro d hd
    simp only [bits, List.mem_reverse, List.mem_map] at hd
    obtain ⟨i, _, rfl⟩ := hd
    exact Nat.mod_lt _ (by decide)

/-! ## Fields -/

theorem get_lt (w : Words) (p : Place) : get w p < 2 ^ p.len := Nat.mod_lt _ (Nat.two_pow_pos _)

theorem get_set_same (w : Words) (p : Place) (v : Nat) : get (set w p v) p = v % 2 ^ p.len := by
  have h1 : (w p.word % 2 ^ p.lo) < 2 ^ p.lo := Nat.mod_lt _ (Nat.two_pow_pos _)
  have e : w p.word / 2 ^ (p.lo + p.len) * 2 ^ (p.lo + p.len) + v % 2 ^ p.len * 2 ^ p.lo + w p.word % 2 ^ p.lo =
      w p.word % 2 ^ p.lo + 2 ^ p.lo * (v % 2 ^ p.len + 2 ^ p.len * (w p.word / 2 ^ (p.lo + p.len))) := by
    rw [pow_add]; ring
  simp only [get, set, if_true, e]
  rw [Nat.add_mul_div_left _ _ (Nat.two_pow_pos _), Nat.div_eq_of_lt h1, Nat.zero_add, Nat.add_mul_mod_self_left,
    Nat.mod_mod]

/-- Two places do not overlap. -/
def Place.apart (p q : Place) : Prop := p.word ≠ q.word ∨ p.lo + p.len ≤ q.lo ∨ q.lo + q.len ≤ p.lo

instance (p q : Place) : Decidable (p.apart q) := by unfold Place.apart; infer_instance

theorem get_set_apart (w : Words) (p q : Place) (v : Nat) (h : p.apart q) : get (set w p v) q = get w q := by
  by_cases hw : q.word = p.word
  · rcases h with h | h | h
    · exact absurd hw.symm h
    · -- `q` above `p`
      obtain ⟨k, hk⟩ := Nat.exists_eq_add_of_le h
      have h1 : w p.word % 2 ^ p.lo < 2 ^ p.lo := Nat.mod_lt _ (Nat.two_pow_pos _)
      have h2 : v % 2 ^ p.len < 2 ^ p.len := Nat.mod_lt _ (Nat.two_pow_pos _)
      have h3 : v % 2 ^ p.len * 2 ^ p.lo + w p.word % 2 ^ p.lo < 2 ^ (p.lo + p.len) := by
        have h4 : (v % 2 ^ p.len + 1) * 2 ^ p.lo ≤ 2 ^ p.len * 2 ^ p.lo := Nat.mul_le_mul_right _ h2
        rw [Nat.add_mul, Nat.one_mul] at h4
        rw [pow_add, Nat.mul_comm (2 ^ p.lo)]
        omega
      simp only [get, set, hw, if_true]
      rw [hk, pow_add 2 (p.lo + p.len) k, ← Nat.div_div_eq_div_mul, ← Nat.div_div_eq_div_mul]
      congr 2
      rw [Nat.add_assoc, Nat.mul_comm, Nat.mul_add_div (Nat.two_pow_pos _), Nat.div_eq_of_lt h3, Nat.add_zero]
    · -- `q` below `p`
      obtain ⟨k, hk⟩ := Nat.exists_eq_add_of_le h
      simp only [get, set, hw, if_true]
      rw [← Nat.mod_mul_right_div_self, ← Nat.mod_mul_right_div_self, ← pow_add]
      congr 1
      have e : w p.word / 2 ^ (p.lo + p.len) * 2 ^ (p.lo + p.len) + v % 2 ^ p.len * 2 ^ p.lo + w p.word % 2 ^ p.lo =
          w p.word % 2 ^ p.lo + 2 ^ (q.lo + q.len) *
            (2 ^ k * (v % 2 ^ p.len + 2 ^ p.len * (w p.word / 2 ^ (p.lo + p.len)))) := by
        have : 2 ^ p.lo = 2 ^ (q.lo + q.len) * 2 ^ k := by rw [hk, pow_add]
        rw [pow_add 2 p.lo p.len, this]; ring
      rw [e, Nat.add_mul_mod_self_left, hk, pow_add 2 (q.lo + q.len) k, Nat.mod_mul_right_mod]
  · simp [get, set, hw]

theorem held_header (w : Words) (f : HField) : heldH w f = some (get w f.place) := by
  cases f <;> simp [heldH, contents, headerDecl, split, get, HField.place, List.lookup, Nat.div_div_eq_div_mul, beq_eq_decide]

theorem held_data (w : Words) (f : DField) : heldD w f = some (get w f.place) := by
  cases f <;> simp [heldD, contents, dataDecl, split, get, DField.place, List.lookup, Nat.div_div_eq_div_mul, beq_eq_decide]

theorem header_apart (f g : HField) (h : f ≠ g) : f.place.apart g.place := by
  revert h; cases f <;> cases g <;> decide

theorem data_apart (f g : DField) (h : f ≠ g) : f.place.apart g.place := by
  revert h; cases f <;> cases g <;> decide

/-- The declared width of a field. -/
def widthH (f : HField) : Option Nat := headerDecl.flatten.lookup f

/-- The declared width of a field of a hit. -/
def widthD (f : DField) : Option Nat := dataDecl.flatten.lookup f

theorem width_header (f : HField) : widthH f = some f.place.len := by cases f <;> rfl
theorem width_data (f : DField) : widthD f = some f.place.len := by cases f <;> rfl

/-- C129: an assignment to a field of a header is read back, reduced to the declared width, and changes no other field
and no other word (of a neighbouring structure). -/
theorem C129_header_fields (w : Words) (f g : HField) (v n : Nat) (hn : widthH f = some n) :
    heldH (set w f.place v) f = some (v % 2 ^ n) ∧ (g ≠ f → heldH (set w f.place v) g = heldH w g) ∧
    ∀ i, 6 ≤ i → set w f.place v i = w i := by
  rw [width_header] at hn
  obtain rfl := Option.some.inj hn
  refine ⟨by rw [held_header, get_set_same], fun h => by rw [held_header, held_header, get_set_apart _ _ _ _ (header_apart f g h.symm)], ?_⟩
  intro i hi
  have : f.place.word < 6 := by cases f <;> decide
  simp only [set]
  rw [if_neg (by omega)]

/-- C129: the same for the fields of a hit. -/
theorem C129_data_fields (w : Words) (f g : DField) (v n : Nat) (hn : widthD f = some n) :
    heldD (set w f.place v) f = some (v % 2 ^ n) ∧ (g ≠ f → heldD (set w f.place v) g = heldD w g) ∧
    ∀ i, 3 ≤ i → set w f.place v i = w i := by
  rw [width_data] at hn
  obtain rfl := Option.some.inj hn
  refine ⟨by rw [held_data, get_set_same], fun h => by rw [held_data, held_data, get_set_apart _ _ _ _ (data_apart f g h.symm)], ?_⟩
  intro i hi
  have : f.place.word < 3 := by cases f <;> decide
  simp only [set]
  rw [if_neg (by omega)]

/-- C129: a header is determined by its fields: no bit of it is out of reach. -/
theorem C129_determined (w w' : Words) (hw : ∀ i, w i < 2 ^ 32) (hw' : ∀ i, w' i < 2 ^ 32)
    (h : ∀ f, heldH w f = heldH w' f) : ∀ i, i < 6 → w i = w' i := by
  have e : ∀ f : HField, get w f.place = get w' f.place := fun f => by
    have := h f
    rw [held_header, held_header] at this
    exact Option.some.inj this
  intro i hi
  have a := hw i
  have b := hw' i
  rcases (by omega : i = 0 ∨ i = 1 ∨ i = 2 ∨ i = 3 ∨ i = 4 ∨ i = 5) with rfl | rfl | rfl | rfl | rfl | rfl
  · have e1 := e .flags
    have e2 := e .slot
    have e3 := e .wire
    have e4 := e .fiber
    have e5 := e .crate
    simp only [get, HField.place] at e1 e2 e3 e4 e5
    omega
  · have e1 := e .timestamp1
    simp only [get, HField.place] at e1
    omega
  · have e1 := e .timestamp2
    simp only [get, HField.place] at e1
    omega
  · have e1 := e .accumulator
    have e2 := e .median
    simp only [get, HField.place] at e1 e2
    omega
  · have e1 := e .padding1
    have e2 := e .nhits
    simp only [get, HField.place] at e1 e2
    omega
  · have e1 := e .padding3
    have e2 := e .padding2
    simp only [get, HField.place] at e1 e2
    omega

/-! ## The timestamp -/

/-- The timestamp that two words stand for: 16-bit pieces, the upper half of each word first. -/
def stampOf (t1 t2 : Nat) : Nat :=
  t1 / 65536 + 65536 * (t1 % 65536) + 4294967296 * (t2 / 65536) + 281474976710656 * (t2 % 65536)

theorem getTs_eq (w : Words) (t1 t2 : Nat) (h1 : heldH w .timestamp1 = some t1) (h2 : heldH w .timestamp2 = some t2) :
    getTs w = stampOf t1 t2 := by
  rw [held_header] at h1 h2
  have e1 := Option.some.inj h1
  have e2 := Option.some.inj h2
  have l1 := get_lt w HField.timestamp1.place
  have l2 := get_lt w HField.timestamp2.place
  rw [e1] at l1
  rw [e2] at l2
  simp only [HField.place] at l1 l2
  rw [getTs, Format.getTs_eq]
  have d1 : t1 / 65536 % 65536 = t1 / 65536 := by omega
  have d2 : t2 / 65536 % 65536 = t2 / 65536 := by omega
  simp only [stamps, e1, e2, stampOf, Search.u64, d1, d2]
  rw [Nat.mod_eq_of_lt] <;> omega

/-- C129: a timestamp of 64 bits is read back as it was set, and setting it changes no other field. -/
theorem C129_timestamp (w : Words) (ts : Nat) (h : ts < 2 ^ 64) :
    getTs (setTs w ts) = ts ∧ ∀ f, f ≠ .timestamp1 → f ≠ .timestamp2 → heldH (setTs w ts) f = heldH w f := by
  constructor
  · rw [getTs, Format.getTs_eq]
    simp only [stamps, setTs]
    rw [get_set_same, get_set_apart _ _ _ _ (header_apart .timestamp2 .timestamp1 (by decide)), get_set_same]
    have key : ∀ a b : Nat, a < 65536 → b < 65536 → (a * 65536 + b) % 2 ^ 32 / 65536 % 65536 = a ∧
        (a * 65536 + b) % 2 ^ 32 % 65536 = b := fun a b ha hb => by
      rw [Nat.mod_eq_of_lt (show a * 65536 + b < 2 ^ 32 by omega)]
      omega
    have m : ∀ x, x % 65536 < 65536 := fun x => Nat.mod_lt _ (by decide)
    obtain ⟨k1, k2⟩ := key (ts % 65536) (ts / 65536 % 65536) (m _) (m _)
    obtain ⟨k3, k4⟩ := key (ts / 4294967296 % 65536) (ts / 281474976710656 % 65536) (m _) (m _)
    simp only [Format.setTs_eq, HField.place, Search.u64, k1, k2, k3, k4]
    clear k1 k2 k3 k4 key m
    have q1 : ts / 4294967296 = ts / 65536 / 65536 := by rw [Nat.div_div_eq_div_mul]
    have q2 : ts / 281474976710656 = ts / 65536 / 65536 / 65536 := by
      rw [Nat.div_div_eq_div_mul, Nat.div_div_eq_div_mul]
    rw [q1, q2]
    rw [Nat.mod_eq_of_lt] <;> omega
  · intro f h1 h2
    rw [held_header, held_header]
    simp only [setTs]
    rw [get_set_apart _ _ _ _ (header_apart _ _ h2.symm), get_set_apart _ _ _ _ (header_apart _ _ h1.symm)]

/-! ## Printouts -/

theorem shown_num (o : Out) (b : Base) (l : String) (x : Nat) (h : o.1.lookup l = some (num b x)) :
    shown o (radix b) l = some x ∧ wellFormed o (radix b) l := by
  rw [radix_eq]
  refine ⟨by simp [shown, h, read_num], ?_⟩
  intro d hd
  rw [h] at hd
  obtain rfl := Option.some.inj hd
  exact num_digits b x

theorem shown_bits (o : Out) (n : Nat) (l : String) (x : Nat) (hn : 0 < n) (hx : x < 2 ^ n)
    (h : o.1.lookup l = some (bits n x)) : shown o 2 l = some x ∧ wellFormed o 2 l := by
  refine ⟨by simp [shown, h, read_bits n x hx], ?_⟩
  intro d hd
  rw [h] at hd
  obtain rfl := Option.some.inj hd
  exact bits_digits n x hn

/-- C129: `print` and `<<` of a header show every field under its label, in the base of the stream, which stays. -/
theorem C129_header_print (b : Base) (w : Words) (x : String × HField) (hx : x ∈ headerLabels) :
    (shown (headerPrint b w) (radix b) x.1 = heldH w x.2 ∧ wellFormed (headerPrint b w) (radix b) x.1) ∧
    (shown (headerStream b w) (radix b) x.1 = heldH w x.2 ∧ wellFormed (headerStream b w) (radix b) x.1) ∧
    (headerPrint b w).2 = b ∧ (headerStream b w).2 = b := by
  rw [held_header]
  refine ⟨shown_num _ _ _ _ ?_, shown_num _ _ _ _ ?_, rfl, rfl⟩ <;>
  · simp only [headerLabels, List.mem_cons, List.not_mem_nil, or_false] at hx
    rcases hx with rfl | rfl | rfl | rfl | rfl | rfl | rfl | rfl | rfl | rfl | rfl <;> rfl

/-- C129: `print_hex` of a header shows every field in base 16, whatever the base of the stream was. -/
theorem C129_header_hex (b : Base) (w : Words) (x : String × HField) (hx : x ∈ headerLabels) :
    shown (headerHex b w) 16 x.1 = heldH w x.2 ∧ wellFormed (headerHex b w) 16 x.1 := by
  rw [held_header]
  refine shown_num _ .hex _ _ ?_
  simp only [headerLabels, List.mem_cons, List.not_mem_nil, or_false] at hx
  rcases hx with rfl | rfl | rfl | rfl | rfl | rfl | rfl | rfl | rfl | rfl | rfl <;> rfl

/-- C129: all printouts show the timestamp; `print_bits` shows it in the base of the stream. -/
theorem C129_stamp_shown (b : Base) (w : Words) (t1 t2 : Nat) (h1 : heldH w .timestamp1 = some t1)
    (h2 : heldH w .timestamp2 = some t2) :
    shown (headerPrint b w) (radix b) "timestamp" = some (stampOf t1 t2) ∧
    shown (headerStream b w) (radix b) "timestamp" = some (stampOf t1 t2) ∧
    shown (headerHex b w) 16 "timestamp" = some (stampOf t1 t2) ∧
    shown (headerBits b w) (radix b) "timestamp" = some (stampOf t1 t2) := by
  rw [← getTs_eq w t1 t2 h1 h2]
  exact ⟨(shown_num _ _ _ _ rfl).1, (shown_num _ _ _ _ rfl).1, (shown_num _ .hex _ _ rfl).1, (shown_num _ _ _ _ rfl).1⟩

/-- C129: a hit is shown completely by `print` and `<<`, by `print_hex` and by `print_bits`. -/
theorem C129_data_print (b : Base) (w : Words) (x : String × DField) (hx : x ∈ dataLabels) :
    (shown (dataPrint b w) (radix b) x.1 = heldD w x.2 ∧ wellFormed (dataPrint b w) (radix b) x.1) ∧
    (shown (dataHex b w) 16 x.1 = heldD w x.2 ∧ wellFormed (dataHex b w) 16 x.1) ∧
    (shown (dataBits b w) 2 x.1 = heldD w x.2 ∧ wellFormed (dataBits b w) 2 x.1) ∧
    (dataPrint b w).2 = b ∧ (dataBits b w).2 = b := by
  rw [held_data]
  refine ⟨shown_num _ _ _ _ ?_, shown_num _ .hex _ _ ?_,
    shown_bits _ x.2.place.len _ _ ?_ (get_lt w x.2.place) ?_, rfl, rfl⟩ <;>
  · simp only [dataLabels, List.mem_cons, List.not_mem_nil, or_false] at hx
    rcases hx with rfl | rfl | rfl | rfl | rfl | rfl | rfl <;> first | rfl | decide

/-- C129 (what holds of `print_bits` of a header): every field but the median and the accumulator is shown. -/
theorem C129_bits_partial (b : Base) (w : Words) (x : String × HField) (hx : x ∈ headerLabels)
    (hm : x.2 ≠ .median) (ha : x.2 ≠ .accumulator) :
    shown (headerBits b w) 2 x.1 = heldH w x.2 ∧ wellFormed (headerBits b w) 2 x.1 := by
  rw [held_header]
  refine shown_bits _ x.2.place.len _ _ ?_ (get_lt w x.2.place) ?_ <;>
  · simp only [headerLabels, List.mem_cons, List.not_mem_nil, or_false] at hx
    rcases hx with rfl | rfl | rfl | rfl | rfl | rfl | rfl | rfl | rfl | rfl | rfl <;>
      first | rfl | decide | exact absurd rfl hm | exact absurd rfl ha

/-- C129: `print_bits` of a header shows the accumulator under "median" and the median under "accumulator"; so it is right
exactly if they are equal. -/
theorem C129_bits_swapped (b : Base) (w : Words) :
    shown (headerBits b w) 2 "median" = heldH w .accumulator ∧ shown (headerBits b w) 2 "accumulator" = heldH w .median ∧
    ((∀ x ∈ headerLabels, shown (headerBits b w) 2 x.1 = heldH w x.2) ↔ heldH w .median = heldH w .accumulator) := by
  have m : shown (headerBits b w) 2 "median" = heldH w .accumulator := by
    rw [held_header]
    exact (shown_bits _ 16 _ _ (by decide) (get_lt w HField.accumulator.place) rfl).1
  have a : shown (headerBits b w) 2 "accumulator" = heldH w .median := by
    rw [held_header]
    exact (shown_bits _ 16 _ _ (by decide) (get_lt w HField.median.place) rfl).1
  refine ⟨m, a, fun h => ?_, fun h x hx => ?_⟩
  · rw [← h ("median", .median) (by simp [headerLabels]), m]
  · by_cases hm : x.2 = .median
    · have : x = ("median", .median) := by
        simp only [headerLabels, List.mem_cons, List.not_mem_nil, or_false] at hx
        rcases hx with rfl | rfl | rfl | rfl | rfl | rfl | rfl | rfl | rfl | rfl | rfl <;> first | rfl | cases hm
      rw [this, m, h]
    · by_cases ha : x.2 = .accumulator
      · have : x = ("accumulator", .accumulator) := by
          simp only [headerLabels, List.mem_cons, List.not_mem_nil, or_false] at hx
          rcases hx with rfl | rfl | rfl | rfl | rfl | rfl | rfl | rfl | rfl | rfl | rfl <;> first | rfl | cases ha
        rw [this, a, h]
      · exact (C129_bits_partial b w x hx hm ha).1

/-- A header with median 900, accumulator 3 and crate 16. -/
def sample : Words := fun i => if i = 0 then 16 * 134217728 else if i = 3 then 900 * 65536 + 3 else if i = 4 then 65536 else 0

/-- C129 (negation for `print_bits`): a median of 900 is shown as 3. -/
theorem C129_bits_counterexample : heldH sample .median = some 900 ∧ shown (headerBits .dec sample) 2 "median" = some 3 := by
  refine ⟨by rw [held_header]; rfl, ?_⟩
  rw [(C129_bits_swapped .dec sample).1, held_header]; rfl

/-- C129 (negation for the base): `print_hex` sets the stream to decimal, also if it was hexadecimal before; and `print` on a
stream that is hexadecimal shows crate 16 as "10". -/
theorem C129_base_counterexample : (headerHex .hex sample).2 = .dec ∧ (dataHex .hex sample).2 = .dec ∧
    heldH sample .crate = some 16 ∧ shown (headerPrint .hex sample) 10 "crate" = some 10 := by
  refine ⟨rfl, rfl, by rw [held_header]; rfl, ?_⟩
  simp [shown, headerPrint, List.lookup, num, get, HField.place, sample, Base.val, read]

/-- C129 (negation for frames): a frame's printout is that of its header; the hits are not shown. -/
theorem C129_frame_counterexample (b : Base) (f : Frame) (l : List Words) :
    frameStream b { f with hits := l } = frameStream b f ∧ (frameStream b f).1.lookup "start_time" = none ∧
    ∀ x ∈ headerLabels, shown (frameStream b f) (radix b) x.1 = heldH f.head x.2 :=
  ⟨rfl, rfl, fun x hx => (C129_header_print b f.head x hx).2.1.1⟩

/-- C129: `set_nhits` of a frame: the header holds the number modulo 65536 and it is read back exactly if it has 16 bits; no
other field changes. -/
theorem C129_nhits (f : Frame) (n : Int) :
    heldH (f.setNhits n).head .nhits = some (n % 65536).toNat ∧ (((f.setNhits n).getNhits : Int) = n ↔ 0 ≤ n ∧ n < 65536) ∧
    ∀ g, g ≠ .nhits → heldH (f.setNhits n).head g = heldH f.head g := by
  have e : get (f.setNhits n).head HField.nhits.place = (n % 65536).toNat := by
    simp only [Frame.setNhits]
    rw [get_set_same]
    simp only [HField.place]
    omega
  refine ⟨by rw [held_header, e], ?_, fun g hg => (C129_header_fields _ .nhits g _ 16 rfl).2.1 hg⟩
  rw [Frame.getNhits, e]
  omega

/-- Cases: the fields of `sample`, a printout of it, and its timestamp after `set_timestamp`. -/
example : heldH sample .crate = some 16 ∧ heldH sample .nhits = some 1 ∧ (∀ i, sample i < 2 ^ 32) ∧
    shown (headerPrint .dec sample) 10 "median" = some 900 ∧ getTs (setTs sample 81985529216486895) = 81985529216486895 ∧
    heldH (setTs sample 81985529216486895) .median = some 900 := by
  refine ⟨by rw [held_header]; rfl, by rw [held_header]; rfl, ?_, ?_, (C129_timestamp sample _ (by decide)).1, ?_⟩
  · intro i
    simp only [sample]
    split
    · decide
    · split
      · decide
      · split <;> decide
  · have := (C129_header_print .dec sample ("median", .median) (by simp [headerLabels])).1.1
    rw [held_header] at this
    exact this
  · rw [(C129_timestamp sample _ (by decide)).2 _ (by decide) (by decide), held_header]; rfl

end Verif.RawTp
