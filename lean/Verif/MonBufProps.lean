import Verif.MonBufModel
/- Property C119: number of stored payloads in monitoring reports. -/
namespace Verif.MonBuf

/-- Specification: payloads written and payloads removed, for a buffer that holds at most `n - 1`. -/
def done (n : Nat) : List Ev → Nat × Nat
  | [] => (0, 0)
  | es => es.foldl (fun x e => match e with
      | .write => if x.1 - x.2 < n - 1 then (x.1 + 1, x.2) else x
      | .pop => if x.2 < x.1 then (x.1, x.2 + 1) else x
      | _ => x) (0, 0)

/-- Specification: payloads stored. -/
def stored (n : Nat) (es : List Ev) : Nat := (done n es).1 - (done n es).2

theorem done_snoc (n : Nat) (es : List Ev) (e : Ev) : done n (es ++ [e]) = match e with
    | .write => if (done n es).1 - (done n es).2 < n - 1 then ((done n es).1 + 1, (done n es).2) else done n es
    | .pop => if (done n es).2 < (done n es).1 then ((done n es).1, (done n es).2 + 1) else done n es
    | _ => done n es := by
  have h : ∀ l, done n l = l.foldl (fun x e => match e with
      | .write => if x.1 - x.2 < n - 1 then (x.1 + 1, x.2) else x
      | .pop => if x.2 < x.1 then (x.1, x.2 + 1) else x
      | _ => x) (0, 0) := by intro l; cases l <;> rfl
  rw [h (es ++ [e]), List.foldl_append, ← h es]
  rfl

theorem run_snoc (n : Nat) (es : List Ev) (e : Ev) : run n (es ++ [e]) = step n (run n es) e := by
  simp [run, List.foldl_append]

theorem snoc_ind {p : List Ev → Prop} (h0 : p []) (hs : ∀ es e, p es → p (es ++ [e])) (es : List Ev) : p es := by
  suffices H : ∀ l : List Ev, p l.reverse by simpa using H es.reverse
  intro l
  induction l with
  | nil => exact h0
  | cons e l ih => rw [List.reverse_cons]; exact hs _ _ ih

theorem next_mod (n k : Nat) (hn : 2 ≤ n) : next n (k % n) = (k + 1) % n := by
  unfold next
  have h := Nat.mod_lt k (show 0 < n by omega)
  have e := Nat.div_add_mod k n
  split
  · rename_i h1
    have : k + 1 = n * (k / n + 1) := by rw [Nat.mul_add, Nat.mul_one]; omega
    rw [this]; simp
  · have : k + 1 = n * (k / n) + (k % n + 1) := by omega
    rw [show (k + 1) % n = (n * (k / n) + (k % n + 1)) % n by rw [← this], Nat.mul_add_mod,
      Nat.mod_eq_of_lt (show k % n + 1 < n by omega)]

/-- Two numbers less than `n` apart have the same remainder only if they are equal. -/
theorem mod_inj (n a b : Nat) (h1 : a ≤ b) (h2 : b < a + n) (h : a % n = b % n) : a = b := by
  have ea := Nat.div_add_mod a n
  have eb := Nat.div_add_mod b n
  rcases Nat.lt_trichotomy (a / n) (b / n) with hl | hl | hl
  · have := Nat.mul_le_mul_left n hl
    rw [Nat.mul_succ] at this
    omega
  · rw [hl, h] at ea; omega
  · have := Nat.mul_le_mul_left n hl
    rw [Nat.mul_succ] at this
    omega

structure Inv (n : Nat) (es : List Ev) : Prop where
  rd : (run n es).rd = (done n es).2 % n
  wr : (run n es).wr = (done n es).1 % n
  le : (done n es).2 ≤ (done n es).1
  cap : (done n es).1 ≤ (done n es).2 + (n - 1)

theorem inv (n : Nat) (hn : 2 ≤ n) (es : List Ev) : Inv n es := by
  induction es using snoc_ind with
  | h0 => exact ⟨by simp [run, done], by simp [run, done], by simp [done], by simp [done]⟩
  | hs es e ih =>
    obtain ⟨h1, h2, h3, h4⟩ := ih
    generalize hw : (done n es).1 = w at *
    generalize hr : (done n es).2 = r at *
    have hd : done n es = (w, r) := by rw [← hw, ← hr]
    cases e with
    | write =>
      have key : next n (run n es).wr ≠ (run n es).rd ↔ w - r < n - 1 := by
        rw [h1, h2, next_mod n w hn]
        constructor
        · intro h
          refine Nat.lt_of_not_le fun hle => h ?_
          have : w + 1 = r + n := by omega
          rw [this, Nat.add_mod_right]
        · intro h he
          have := mod_inj n r (w + 1) (by omega) (by omega) he.symm
          omega
      have e1 : done n (es ++ [.write]) = if w - r < n - 1 then (w + 1, r) else (w, r) := by
        rw [done_snoc, hd]
      by_cases h : w - r < n - 1
      · rw [if_pos h] at e1
        have e2 : run n (es ++ [.write]) = { run n es with wr := next n (run n es).wr } := by
          rw [run_snoc]; exact if_pos (key.mpr h)
        refine ⟨?_, ?_, ?_, ?_⟩ <;> rw [e1]
        · rw [e2]; exact h1
        · rw [e2]; show next n (run n es).wr = _; rw [h2, next_mod n w hn]
        · show r ≤ w + 1; omega
        · show w + 1 ≤ r + (n - 1); omega
      · rw [if_neg h] at e1
        have e2 : run n (es ++ [.write]) = run n es := by
          rw [run_snoc]; exact if_neg fun x => h (key.mp x)
        refine ⟨?_, ?_, ?_, ?_⟩ <;> rw [e1]
        · rw [e2]; exact h1
        · rw [e2]; exact h2
        · exact h3
        · exact h4
    | pop =>
      have key : (run n es).rd ≠ (run n es).wr ↔ r < w := by
        rw [h1, h2]
        constructor
        · intro h
          refine Nat.lt_of_not_le fun hle => h ?_
          have : w = r := by omega
          rw [this]
        · intro h he
          have := mod_inj n r w (by omega) (by omega) he
          omega
      have e1 : done n (es ++ [.pop]) = if r < w then (w, r + 1) else (w, r) := by
        rw [done_snoc, hd]
      by_cases h : r < w
      · rw [if_pos h] at e1
        have e2 : run n (es ++ [.pop]) = { run n es with rd := next n (run n es).rd } := by
          rw [run_snoc]; exact if_pos (key.mpr h)
        refine ⟨?_, ?_, ?_, ?_⟩ <;> rw [e1]
        · rw [e2]; show next n (run n es).rd = _; rw [h1, next_mod n r hn]
        · rw [e2]; exact h2
        · show r + 1 ≤ w; omega
        · show w ≤ r + 1 + (n - 1); omega
      · rw [if_neg h] at e1
        have e2 : run n (es ++ [.pop]) = run n es := by
          rw [run_snoc]; exact if_neg fun x => h (key.mp x)
        refine ⟨?_, ?_, ?_, ?_⟩ <;> rw [e1]
        · rw [e2]; exact h1
        · rw [e2]; exact h2
        · exact h3
        · exact h4
    | loadW =>
      have e1 : done n (es ++ [.loadW]) = (w, r) := by rw [done_snoc, hd]
      refine ⟨?_, ?_, ?_, ?_⟩ <;> rw [e1]
      · rw [run_snoc]; exact h1
      · rw [run_snoc]; exact h2
      · exact h3
      · exact h4
    | loadR =>
      have e1 : done n (es ++ [.loadR]) = (w, r) := by rw [done_snoc, hd]
      refine ⟨?_, ?_, ?_, ?_⟩ <;> rw [e1]
      · rw [run_snoc]; exact h1
      · rw [run_snoc]; exact h2
      · exact h3
      · exact h4

/-- The two counts only grow. -/
theorem done_mono (n : Nat) (a b : List Ev) :
    (done n a).1 ≤ (done n (a ++ b)).1 ∧ (done n a).2 ≤ (done n (a ++ b)).2 := by
  induction b using snoc_ind with
  | h0 => simp
  | hs b e ih =>
    rw [← List.append_assoc, done_snoc]
    cases e with
    | write =>
      simp only
      split
      · exact ⟨by simp only; omega, ih.2⟩
      · exact ih
    | pop =>
      simp only
      split
      · exact ⟨ih.1, by simp only; omega⟩
      · exact ih
    | loadW => exact ih
    | loadR => exact ih

/-- What the monitoring thread has loaded stays while the others work. -/
theorem loaded_stays (n : Nat) (a b : List Ev) (hb : .loadW ∉ b) : (run n (a ++ b)).loaded = (run n a).loaded := by
  induction b using snoc_ind with
  | h0 => simp
  | hs b e ih =>
    rw [← List.append_assoc, run_snoc]
    have := ih fun h => hb (by simp [h])
    cases e with
    | write => simp only [step]; split <;> exact this
    | pop => simp only [step]; split <;> exact this
    | loadW => exact absurd (by simp) hb
    | loadR => exact this

theorem no_pop (n : Nat) (a b : List Ev) (hb : .pop ∉ b) : (done n (a ++ b)).2 = (done n a).2 := by
  induction b using snoc_ind with
  | h0 => simp
  | hs b e ih =>
    rw [← List.append_assoc, done_snoc]
    have := ih fun h => hb (by simp [h])
    cases e with
    | write => simp only; split <;> exact this
    | pop => exact absurd (by simp) hb
    | loadW => exact this
    | loadR => exact this

theorem no_write (n : Nat) (a b : List Ev) (hb : .write ∉ b) : (done n (a ++ b)).1 = (done n a).1 := by
  induction b using snoc_ind with
  | h0 => simp
  | hs b e ih =>
    rw [← List.append_assoc, done_snoc]
    have := ih fun h => hb (by simp [h])
    cases e with
    | pop => simp only; split <;> exact this
    | write => exact absurd (by simp) hb
    | loadW => exact this
    | loadR => exact this

/-- The remainders of the indices give their distance if that is less than the size. -/
theorem occupancy_eq (n w r : Nat) (h1 : r ≤ w) (h2 : w < r + n) :
    occupancy n (w % n) (r % n) = ((w - r : Nat) : Int) := by
  have ew := Nat.div_add_mod w n
  have er := Nat.div_add_mod r n
  have lw := Nat.mod_lt w (show 0 < n by omega)
  have lr := Nat.mod_lt r (show 0 < n by omega)
  unfold occupancy
  rcases Nat.lt_trichotomy (r / n) (w / n) with hl | hl | hl
  · have a1 := Nat.mul_le_mul_left n hl
    rw [Nat.mul_succ] at a1
    have a2 : n * (w / n) = n * (r / n) + n := by
      rcases Nat.lt_or_ge (r / n + 1) (w / n) with hx | hx
      · have := Nat.mul_le_mul_left n hx
        rw [Nat.mul_succ, Nat.mul_succ] at this
        omega
      · have : w / n = r / n + 1 := by omega
        rw [this, Nat.mul_add, Nat.mul_one]
    simp only
    rw [if_pos (by omega)]
    omega
  · rw [hl] at er
    simp only
    rw [if_neg (by omega)]
    omega
  · have a1 := Nat.mul_le_mul_left n hl
    rw [Nat.mul_succ] at a1
    omega

/-! ### The properties -/

/-- What a report says in terms of what was stored at its beginning and what was removed meanwhile: stored less
removed, or, if more was removed than was stored at the beginning, that plus the size of the buffer. -/
theorem C119_reported (n : Nat) (hn : 2 ≤ n) (a b : List Ev) (hb : .loadW ∉ b) :
    ∃ x : Int, (run n (a ++ .loadW :: b ++ [.loadR])).reports =
        (run n (a ++ .loadW :: b)).reports ++ [x] ∧
      0 ≤ x ∧ x < n ∧
      ((done n (a ++ .loadW :: b)).2 - (done n a).2 ≤ stored n a →
        x = ((stored n a - ((done n (a ++ .loadW :: b)).2 - (done n a).2) : Nat) : Int)) ∧
      (stored n a < (done n (a ++ .loadW :: b)).2 - (done n a).2 →
        (done n (a ++ .loadW :: b)).2 - (done n a).2 ≤ stored n a + n →
        x = ((stored n a + n - ((done n (a ++ .loadW :: b)).2 - (done n a).2)) % n : Nat)) := by
  have e0 : a ++ .loadW :: b = (a ++ [.loadW]) ++ b := by simp
  have ia := inv n hn (a ++ [.loadW])
  have ib := inv n hn (a ++ .loadW :: b)
  have hd : done n (a ++ [.loadW]) = done n a := by rw [done_snoc]
  have hl : (run n (a ++ .loadW :: b)).loaded = (done n a).1 % n := by
    rw [e0, loaded_stays n _ b hb, run_snoc]
    show (run n a).wr = _
    exact (inv n hn a).wr
  have hm := done_mono n (a ++ [.loadW]) b
  rw [← e0, hd] at hm
  refine ⟨occupancy n ((done n a).1 % n) ((done n (a ++ .loadW :: b)).2 % n), ?_, ?_, ?_, ?_, ?_⟩
  · rw [run_snoc]
    show (run n (a ++ .loadW :: b)).reports ++ [occupancy n (run n (a ++ .loadW :: b)).loaded _] = _
    rw [hl, ib.rd]
  · have l1 := Nat.mod_lt (done n a).1 (show 0 < n by omega)
    have l2 := Nat.mod_lt (done n (a ++ .loadW :: b)).2 (show 0 < n by omega)
    unfold occupancy
    simp only
    split <;> omega
  · have l1 := Nat.mod_lt (done n a).1 (show 0 < n by omega)
    have l2 := Nat.mod_lt (done n (a ++ .loadW :: b)).2 (show 0 < n by omega)
    unfold occupancy
    simp only
    split <;> omega
  · intro h
    have hle := (inv n hn a).le
    have hcap := (inv n hn a).cap
    unfold stored at h ⊢
    rw [occupancy_eq n _ _ (by omega) (by omega)]
    congr 1
    omega
  · intro h h'
    have hle := (inv n hn a).le
    have hcap := (inv n hn a).cap
    unfold stored at h h' ⊢
    generalize (done n a).1 = w at *
    generalize (done n a).2 = r at *
    generalize (done n (a ++ .loadW :: b)).2 = r2 at *
    have e : w % n = (w + n) % n := by rw [Nat.add_mod_right]
    by_cases hx : r2 = w
    · omega
    · rw [e, occupancy_eq n (w + n) r2 (by omega) (by omega)]
      rw [Nat.mod_eq_of_lt (by omega)]
      congr 1
      omega

/-- **C119 (partial)** A report during which nothing is removed gives the number stored when it began; one during
which nothing is written, the number stored when it ends. In particular the cleanup, which is the only one to remove
payloads, always gets the number stored at one moment. Missing: reports during which payloads are written and
removed, for which this is false. -/
theorem C119_moment_partial (n : Nat) (hn : 2 ≤ n) (a b : List Ev) (hb : .loadW ∉ b)
    (h : .pop ∉ b ∨ .write ∉ b) :
    ∃ m, (m = a ∨ m = a ++ .loadW :: b) ∧
      (run n (a ++ .loadW :: b ++ [.loadR])).reports =
        (run n (a ++ .loadW :: b)).reports ++ [(stored n m : Int)] := by
  obtain ⟨x, hx, -, -, h1, -⟩ := C119_reported n hn a b hb
  have e0 : a ++ .loadW :: b = (a ++ [.loadW]) ++ b := by simp
  have hd : done n (a ++ [.loadW]) = done n a := by rw [done_snoc]
  have ib := inv n hn (a ++ .loadW :: b)
  have ia := inv n hn a
  rcases h with h | h
  · have hp := no_pop n (a ++ [.loadW]) b h
    rw [← e0, hd] at hp
    refine ⟨a, .inl rfl, ?_⟩
    rw [hx, h1 (by rw [hp]; omega), hp]
    simp
  · have hp := no_write n (a ++ [.loadW]) b h
    rw [← e0, hd] at hp
    have hm := (done_mono n (a ++ [.loadW]) b).2
    rw [← e0, hd] at hm
    have hle := ib.le
    rw [hp] at hle
    refine ⟨a ++ .loadW :: b, .inr rfl, ?_⟩
    rw [hx, h1 (by unfold stored; omega)]
    congr 3
    unfold stored
    rw [hp]
    have := ia.le
    omega

/-- The hypotheses can be met: three writes, one of them during the report; four payloads removed during a report. -/
example : (run 4 [.write, .write, .loadW, .write, .loadR]).reports = [2] ∧
    (run 6 [.write, .write, .write, .write, .write, .loadW, .pop, .pop, .pop, .pop, .loadR]).reports = [1] := by
  decide

/-- **C119 is false of the code (1)** In a buffer of a hundred slots that never holds more than two payloads, a report
may say 99. -/
theorem C119_almost_full_counterexample :
    (run 100 [.write, .loadW, .write, .pop, .pop, .loadR]).reports = [99] ∧
    ∀ k, stored 100 ([.write, .loadW, .write, .pop, .pop, .loadR].take k) ≤ 2 := by
  refine ⟨by decide, fun k => ?_⟩
  match k with
  | 0 | 1 | 2 | 3 | 4 | 5 => decide
  | k + 6 => rw [List.take_of_length_le (by simp)]; decide

/-- **C119 is false of the code (2)** A report may say that the buffer is empty though it never was while the report
was made. -/
theorem C119_empty_counterexample :
    (run 100 [.write, .loadW, .write, .pop, .loadR]).reports = [0] ∧
    stored 100 [.write] = 1 ∧ stored 100 [.write, .loadW, .write] = 2 ∧
    stored 100 [.write, .loadW, .write, .pop] = 1 := by
  decide

end Verif.MonBuf
