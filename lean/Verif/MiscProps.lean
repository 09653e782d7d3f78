import Verif.MiscModel
/- Properties C48 (rate limiter), C54 (fake triggers), C55 (dump_to_buffer). -/
namespace Verif.Misc
open Verif.Search (u64)

/-! ### C48 -/

theorem limit_growth (P O : Nat) (s : RL) (t : Nat) : s.deadline + P ≤ (limit P O s t).deadline := by
  unfold limit; split
  · simp only; omega
  · split <;> simp

theorem deadline_le (P O : Nat) (e : Exec P O) (k : Nat) :
    (e.s k).deadline ≤ (e.s k).now + P ∧ (e.s k).now ≤ e.r k := by
  induction k with
  | zero => rw [e.start.1]; exact ⟨Nat.le_refl _, e.start.2⟩
  | succ k ih =>
    have hm := e.mono k
    rw [e.step k]
    unfold limit
    split
    · exact ⟨Nat.le_refl _, by simp only; omega⟩
    · rename_i h1
      split
      · rename_i h2
        have := e.reading k h1 h2
        exact ⟨by simp only; omega, this.2.1⟩
      · exact ⟨by simp only; omega, by simp only; omega⟩

/-- Progress of `j` calls after the `i`-th return. -/
def Prog (P O : Nat) (e : Exec P O) (i j : Nat) : Prop :=
  ((e.s (i + j)).now = (e.s i).now ∧ (j = 0 ∨ (e.s i).now + j * P ≤ (e.s (i + j)).deadline + O)) ∨
  (e.r i ≤ (e.s (i + j)).now ∧
    (j * P ≤ O + 2 * P ∨ e.r i + j * P ≤ (e.s (i + j)).deadline + 2 * O + 2 * P))

theorem mono_le (P O : Nat) (e : Exec P O) (i j : Nat) : e.r i ≤ e.r (i + j) := by
  induction j with
  | zero => exact Nat.le_refl _
  | succ j ih => exact Nat.le_trans ih (e.mono (i + j))

theorem prog (P O : Nat) (e : Exec P O) (i j : Nat) : Prog P O e i j := by
  induction j with
  | zero => left; exact ⟨rfl, Or.inl rfl⟩
  | succ j ih =>
    have hup := deadline_le P O e (i + j)
    have hm := mono_le P O e i j
    have hstep := e.step (i + j)
    have hrd := e.reading (i + j)
    have hs : (j + 1) * P = j * P + P := Nat.succ_mul j P
    unfold Prog at *
    rw [show i + (j + 1) = i + j + 1 from rfl, hs, hstep]
    have h0 : j = 0 → j * P = 0 := by intro h; rw [h]; simp
    unfold limit
    rcases ih with ⟨h1, h2⟩ | ⟨h1, h2⟩
    · -- no clock reading yet
      split
      · rename_i ha
        left
        refine ⟨h1, Or.inr ?_⟩
        simp only
        rcases h2 with h2 | h2
        · have := h0 h2; omega
        · omega
      · rename_i ha
        split
        · rename_i hb
          have := hrd ha hb
          right
          refine ⟨by simp only; omega, Or.inl ?_⟩
          rcases h2 with h2 | h2
          · have := h0 h2; omega
          · omega
        · rename_i hb
          left
          refine ⟨h1, Or.inr ?_⟩
          simp only
          rcases h2 with h2 | h2
          · have := h0 h2; omega
          · omega
    · split
      · rename_i ha
        right
        refine ⟨h1, Or.inr ?_⟩
        simp only
        rcases h2 with h2 | h2 <;> omega
      · rename_i ha
        split
        · rename_i hb
          have := hrd ha hb
          right
          refine ⟨by simp only; omega, Or.inr ?_⟩
          simp only
          rcases h2 with h2 | h2 <;> omega
        · rename_i hb
          right
          refine ⟨h1, Or.inr ?_⟩
          simp only
          rcases h2 with h2 | h2 <;> omega

/-- **C48** In every execution, whatever the delays of the caller: if `j` further calls return between
the return of call `i` and that of call `i + j`, then `j` periods fit into that time, up to a constant (twice
the overshoot allowance plus three periods). -/
theorem C48_rate_bounded (P O : Nat) (e : Exec P O) (i j : Nat) :
    j * P ≤ (e.r (i + j) - e.r i) + 2 * O + 3 * P := by
  have h := prog P O e i j
  have hup := deadline_le P O e (i + j)
  have hm := mono_le P O e i j
  have h0 : j = 0 → j * P = 0 := by intro h; rw [h]; simp
  rcases h with ⟨h1, h2 | h2⟩ | ⟨h1, h2 | h2⟩
  · have := h0 h2; omega
  · omega
  · omega
  · omega

/-- **C48 (no undue waiting)** The deadline up to which a call may wait is never more than one period
after the last clock reading. -/
theorem C48_wait_bounded (P O : Nat) (e : Exec P O) (k : Nat) : (e.s k).deadline ≤ (e.s k).now + P :=
  (deadline_le P O e k).1

/-- The execution of a prompt caller with period 10: call `k` returns at time `10 k`. -/
def prompt : Exec 10 100 where
  s := fun k => ⟨10 * k, 10 * k + 10⟩
  r := fun k => 10 * k
  t := fun k => 10 * k
  start := ⟨rfl, Nat.le_refl _⟩
  mono := by intro k; show 10 * k ≤ 10 * (k + 1); omega
  step := by
    intro k
    unfold limit
    simp only
    rw [if_neg (by omega), if_pos (by omega)]
    have h1 : 10 * (k + 1) = 10 * k + 10 := by omega
    rw [h1]
  reading := by intro k _ _; simp only; omega

/-- Non-vacuity. -/
example : (prompt.r 7, prompt.s 7) = (70, ⟨70, 80⟩) := rfl
example : 50 * 10 ≤ (prompt.r (2 + 50) - prompt.r 2) + 2 * 100 + 3 * 10 := C48_rate_bounded 10 100 prompt 2 50

/-! ### C54 -/

/-- **C54** Every fake trigger request made for a current time `d` has a window of exactly 300000 ticks,
beginning not after the current time and at most 500100 ticks before it. -/
theorem C54_window (prev d : Nat) (hd : d < 18446744073709551616) :
    (fakeReq prev d).we = (fakeReq prev d).wb + 300000 ∧ (fakeReq prev d).wb ≤ d ∧
    d ≤ (fakeReq prev d).wb + 500100 := by
  have key : (fakeReq prev d).wb = d - 500100 := by
    have hfd : fakeDelay = 500000 := rfl
    simp only [fakeReq]
    by_cases h : d > fakeDelay
    · rw [if_pos h]; split <;> omega
    · rw [if_neg h]; simp; omega
  have hwe : (fakeReq prev d).we = u64 ((fakeReq prev d).wb + 300000) := rfl
  rw [hwe, key]
  unfold u64
  omega

example : fakeReq 4 2000000 = ⟨5, 1500000, 1499900, 1799900⟩ := by decide

/-- **C54** Over any sequence of current times: one request per non-zero time, in order, numbered
consecutively, each for its time. -/
theorem C54_numbered (prev : Nat) (ds : List Nat) :
    (fakeRun prev ds).map (·.num) = (List.range ((ds.filter (· ≠ 0)).length)).map (fun i => prev + 1 + i) ∧
    fakeRun prev ds = ((ds.filter (· ≠ 0)).zipIdx).map (fun x => fakeReq (prev + x.2) x.1) := by
  have key : ∀ (ds : List Nat) (prev : Nat),
      fakeRun prev ds = ((ds.filter (· ≠ 0)).zipIdx).map (fun x => fakeReq (prev + x.2) x.1) := by
    intro ds
    induction ds with
    | nil => intro prev; rfl
    | cons d ds ih =>
      intro prev
      by_cases h : d = 0
      · subst h
        simp only [fakeRun, ne_eq, not_true_eq_false, if_false]
        rw [ih]; simp
      · simp only [fakeRun, ne_eq, h, not_false_eq_true, if_true]
        rw [ih]
        simp only [h, List.filter_cons, ne_eq, not_false_eq_true, decide_true, if_true,
          List.zipIdx_cons, List.map_cons, Nat.add_zero]
        congr 1
        rw [List.zipIdx_succ, List.map_map]
        apply List.map_congr_left
        intro x _
        simp only [Function.comp]
        congr 1
        omega
  refine ⟨?_, key ds prev⟩
  rw [key ds prev, List.map_map]
  apply List.ext_getElem
  · simp
  · intro n h1 h2
    simp [fakeReq]
    omega

/-- Non-vacuity: start-up (near zero) and a later time. -/
example : fakeRun 0 [0, 400000, 500050, 2000000] =
    [⟨1, 0, 0, 300000⟩, ⟨2, 50, 0, 300000⟩, ⟨3, 1500000, 1499900, 1799900⟩] := by decide

/-- **C54 (counter)** The number is a signed 32-bit integer that is never reset. The loop is defined exactly as long as the
triggers made since the link was created are at most 2^31 - 1, and then it makes the requests described above. -/
theorem C54_counter_partial (prev : Nat) (hp : prev ≤ 2147483647) (ds : List Nat) :
    (prev + (ds.filter (· ≠ 0)).length ≤ 2147483647 → fakeRunInt prev ds = .ok (fakeRun prev ds)) ∧
    (2147483647 < prev + (ds.filter (· ≠ 0)).length → fakeRunInt prev ds = .ub .overflow) := by
  induction ds generalizing prev with
  | nil => exact ⟨fun _ => rfl, fun h => by simp at h; omega⟩
  | cons d ds ih =>
    by_cases hd : d = 0
    · subst hd
      simpa [fakeRunInt, fakeRun] using ih prev hp
    · have hl : ((d :: ds).filter (· ≠ 0)).length = (ds.filter (· ≠ 0)).length + 1 := by simp [hd]
      rw [hl]
      by_cases hlt : prev < 2147483647
      · obtain ⟨i1, i2⟩ := ih (prev + 1) (by omega)
        constructor
        · intro h
          simp only [fakeRunInt, fakeRun, ne_eq, hd, not_false_eq_true, if_true, hlt]
          rw [i1 (by omega)]
          rfl
        · intro h
          simp only [fakeRunInt, ne_eq, hd, not_false_eq_true, if_true, hlt]
          rw [i2 (by omega)]
          rfl
      · constructor
        · intro h; omega
        · intro _
          simp only [fakeRunInt, ne_eq, hd, not_false_eq_true, if_true, hlt, if_false]

/-- Non-vacuity: the last number that can be given. -/
example : fakeRunInt 2147483646 [0, 2000000] = .ok [⟨2147483647, 1500000, 1499900, 1799900⟩] := by decide

/-- **C54 is false** for the trigger after number 2^31 - 1, however the times were. -/
theorem C54_counter_counterexample : ∃ ds : List Nat, (∀ d ∈ ds, d < 18446744073709551616) ∧
    fakeRunInt 0 ds = .ub .overflow := by
  refine ⟨List.replicate 2147483648 2000000, ?_, (C54_counter_partial 0 (by decide) _).2 ?_⟩
  · intro d hd
    rw [List.eq_of_mem_replicate hd]
    decide
  · rw [List.filter_replicate_of_pos (by decide), List.length_replicate]
    decide

/-! ### C55 -/

/-- **C55 (partial)** Without wrapping, `dump_to_buffer` copies the data to the given position and changes
nothing else. Missing: wrapping copies, for which the claim is false. -/
theorem C55_no_wrap_partial (data buf : List Nat) (pos fuel : Nat)
    (hfit : pos + data.length ≤ buf.length) (hf : 0 < fuel) :
    ∃ out, dump data fuel data.length buf pos = .ok out ∧ out.length = buf.length ∧
      (∀ i, i < data.length → out[pos + i]? = data[i]?) ∧
      (∀ k, k < pos ∨ pos + data.length ≤ k → out[k]? = buf[k]?) := by
  refine ⟨memcpyTo buf pos data, ?_, ?_, ?_, ?_⟩
  · cases fuel with
    | zero => omega
    | succ fuel =>
      by_cases h0 : data.length = 0
      · have : data = [] := List.length_eq_zero_iff.1 h0
        subst this
        simp [dump, memcpyTo]
      · obtain ⟨m, hm⟩ : ∃ m, data.length = m + 1 := ⟨data.length - 1, by omega⟩
        have hmin : min data.length (buf.length - pos) = data.length := by omega
        rw [hm, dump, ← hm]
        · simp only [hmin, Nat.lt_irrefl, if_false, Nat.sub_self, List.take_length]
          simp [dump]
        · omega
  · simp [memcpyTo]; omega
  · intro i hi
    unfold memcpyTo
    rw [List.append_assoc, List.getElem?_append_right (by simp; omega)]
    rw [List.getElem?_append_left (by simp; omega)]
    congr 1
    simp; omega
  · intro k hk
    unfold memcpyTo
    rcases hk with hk | hk
    · rw [List.append_assoc, List.getElem?_append_left (by simp; omega), List.getElem?_take, if_pos hk]
    · rw [List.getElem?_append_right (by simp; omega), List.getElem?_drop]
      congr 1
      simp; omega

example : (1 : Nat) + [7, 8].length ≤ [0, 0, 0, 0].length ∧ dump [7, 8] 1 2 [0, 0, 0, 0] 1 = .ok [0, 7, 8, 0] := by
  decide

/-- **C55 is false of the code for every wrapping copy**: the part after the wrap is copied from the
beginning of the data again, so position 0 of the buffer gets the first byte of the data instead of
the byte that follows the part before the wrap. -/
theorem C55_wrap_counterexample (data buf : List Nat) (pos fuel : Nat) (hp : pos < buf.length)
    (hw : buf.length < pos + data.length) (hl : data.length ≤ buf.length) (hf : 2 ≤ fuel) :
    ∃ out, dump data fuel data.length buf pos = .ok out ∧ out[0]? = data[0]? ∧
      (data[0]? ≠ data[buf.length - pos]? → out[0]? ≠ data[buf.length - pos]?) := by
  obtain ⟨f, rfl⟩ : ∃ f, fuel = f + 2 := ⟨fuel - 2, by omega⟩
  have hstep : dump data (f + 2) data.length buf pos =
      .ok (memcpyTo (memcpyTo buf pos (data.take (buf.length - pos))) 0
        (data.take (data.length - (buf.length - pos)))) := by
    obtain ⟨m, hm⟩ : ∃ m, data.length = m + 1 := ⟨data.length - 1, by omega⟩
    have hmin : min data.length (buf.length - pos) = buf.length - pos := by omega
    rw [hm, dump, ← hm]
    · simp only [hmin]
      rw [if_neg (by omega)]
      have hpos : pos + (buf.length - pos) = buf.length := by omega
      simp only [hpos, if_true]
      have hlen : (memcpyTo buf pos (data.take (buf.length - pos))).length = buf.length := by
        simp [memcpyTo]; omega
      obtain ⟨m2, hm2⟩ : ∃ m, data.length - (buf.length - pos) = m + 1 :=
        ⟨data.length - (buf.length - pos) - 1, by omega⟩
      rw [hm2, dump, ← hm2]
      · have hmin2 : min (data.length - (buf.length - pos)) (buf.length - 0) =
            data.length - (buf.length - pos) := by omega
        simp only [hlen, hmin2]
        rw [if_neg (by omega)]
        simp [dump]
      · omega
    · omega
  refine ⟨_, hstep, ?_, ?_⟩
  · unfold memcpyTo
    rw [List.append_assoc, List.take_zero, List.nil_append,
      List.getElem?_append_left (by simp; omega), List.getElem?_take, if_pos (by omega)]
  · intro hne h
    apply hne
    rw [← h]
    unfold memcpyTo
    rw [List.append_assoc, List.take_zero, List.nil_append,
      List.getElem?_append_left (by simp; omega), List.getElem?_take, if_pos (by omega)]

example : dump [1, 2, 3] 5 3 [0, 0, 0, 0] 3 = .ok [1, 2, 0, 1] := by decide
example : dump [1, 2, 3] 5 3 [0, 0, 0, 0] 1 = .ok [0, 1, 2, 3] := by decide

end Verif.Misc
