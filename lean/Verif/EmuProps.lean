import Verif.EmuModel
/- Property C47: the source emulator; C62: the error bit generator. -/
namespace Verif.Emu
open Verif.Search (u64)

/-- Specification: element `k` of the file. -/
def element (c : Cfg) (k : Nat) : List Nat := (c.source.drop (k * c.sz)).take c.sz

/-- Specification: does iteration `i` create a payload? (dropout pattern used cyclically) -/
def creates (c : Cfg) (i : Nat) : Bool := c.drops.getD (i % c.drops.length) false

/-- Number of payloads created in the first `n` iterations. -/
def created (c : Cfg) (n : Nat) : Nat := ((List.range n).filter (creates c)).length

/-- Specification of the emulator's output after `n` iterations: the iterations that create a payload,
in order; each emits the element whose number is the count of earlier payloads modulo the number of
elements, with the timestamp of its iteration. -/
def expected (c : Cfg) (t0 n : Nat) : List (List Nat × Nat) :=
  ((List.range n).filter (creates c)).map (fun i =>
    (element c (created c i % numElem c), u64 (t0 + i * (c.tick * 12))))

/-- Loop invariant. -/
structure Inv (c : Cfg) (t0 n : Nat) (s : St) : Prop where
  off : s.offset ≤ numElem c ∧ s.offset % numElem c = created c n % numElem c
  di : s.di = n % c.drops.length
  ts : s.ts = u64 (t0 + n * (c.tick * 12))
  out : s.out = expected c t0 n

theorem wrapped_eq (c : Cfg) (hs : 0 < c.sz) (hl : c.sz ≤ c.source.length) (o : Nat) (ho : o ≤ numElem c) :
    wrapped c o = o % numElem c ∧ o % numElem c < numElem c := by
  have hn : 0 < numElem c := Nat.div_pos hl hs
  refine ⟨?_, Nat.mod_lt _ hn⟩
  unfold wrapped
  have hdm : numElem c * c.sz ≤ c.source.length := Nat.div_mul_le_self _ _
  have hlt : c.source.length < (numElem c + 1) * c.sz := by
    have := Nat.lt_mul_div_succ c.source.length hs
    rw [Nat.mul_comm] at this; exact this
  rcases Nat.lt_or_ge o (numElem c) with h | h
  · rw [Nat.mod_eq_of_lt h]
    have h1 : o < numElem c * c.sz := Nat.lt_of_lt_of_le h (Nat.le_mul_of_pos_right _ hs)
    have h2 : (o + 1) * c.sz ≤ numElem c * c.sz := Nat.mul_le_mul_right _ h
    rw [if_neg]
    omega
  · have e : o = numElem c := by omega
    rw [e, Nat.mod_self, if_pos]
    right; exact hlt

theorem readAt_elem (c : Cfg) (k : Nat) (hk : k < numElem c) : readAt c k = .ok (element c k) := by
  unfold readAt element
  have hdm : numElem c * c.sz ≤ c.source.length := Nat.div_mul_le_self _ _
  have h2 : (k + 1) * c.sz ≤ numElem c * c.sz := Nat.mul_le_mul_right _ hk
  rw [Nat.add_mul] at h2
  rw [if_pos (by omega)]

theorem created_succ (c : Cfg) (n : Nat) :
    created c (n + 1) = created c n + (if creates c n then 1 else 0) := by
  unfold created
  rw [List.range_succ, List.filter_append, List.length_append]
  cases h : creates c n <;> simp [h]

theorem expected_succ (c : Cfg) (t0 n : Nat) :
    expected c t0 (n + 1) = expected c t0 n ++
      (if creates c n then [(element c (created c n % numElem c), u64 (t0 + n * (c.tick * 12)))] else []) := by
  unfold expected
  rw [List.range_succ, List.filter_append, List.map_append]
  cases h : creates c n <;> simp [h]

theorem u64_add (a b : Nat) : u64 (u64 a + b) = u64 (a + b) := by
  unfold u64; omega

theorem iter_inv (c : Cfg) (t0 : Nat) (hs : 0 < c.sz) (hl : c.sz ≤ c.source.length) (hd : c.drops ≠ [])
    (n : Nat) {s : St} (inv : Inv c t0 n s) : ∃ s', iter c s = .ok s' ∧ Inv c t0 (n + 1) s' := by
  have hdl : 0 < c.drops.length := List.length_pos_iff.2 hd
  obtain ⟨w1, w2⟩ := wrapped_eq c hs hl s.offset inv.off.1
  have hdi : s.di < c.drops.length := by rw [inv.di]; exact Nat.mod_lt _ hdl
  have hget : c.drops[s.di]? = some (creates c n) := by
    unfold creates
    rw [List.getD_eq_getElem?_getD, ← inv.di, List.getElem?_eq_getElem hdi]; rfl
  have hdi' : (s.di + 1) % c.drops.length = (n + 1) % c.drops.length := by
    rw [inv.di, Nat.mod_add_mod]
  have hts : u64 (s.ts + c.tick * 12) = u64 (t0 + (n + 1) * (c.tick * 12)) := by
    rw [inv.ts, u64_add]; congr 1
    rw [Nat.add_mul]; omega
  cases hc : creates c n with
  | false =>
    refine ⟨⟨s.offset % numElem c, (s.di + 1) % c.drops.length, u64 (s.ts + c.tick * 12), s.out⟩, ?_, ?_⟩
    · simp only [iter, hget, hc, w1]; rfl
    · refine ⟨⟨Nat.le_of_lt w2, ?_⟩, hdi', hts, ?_⟩
      · rw [created_succ, hc]; simp [inv.off.2]
      · rw [expected_succ, hc]; simp [inv.out]
  | true =>
    refine ⟨⟨s.offset % numElem c + 1, (s.di + 1) % c.drops.length, u64 (s.ts + c.tick * 12),
      s.out ++ [(element c (s.offset % numElem c), s.ts)]⟩, ?_, ?_⟩
    · simp only [iter, hget, hc, w1, readAt_elem c _ w2]; rfl
    · refine ⟨⟨w2, ?_⟩, hdi', hts, ?_⟩
      · rw [created_succ, hc]
        show (s.offset % numElem c + 1) % numElem c = _
        rw [inv.off.2, Nat.mod_add_mod]; rfl
      · rw [expected_succ, hc]
        show s.out ++ _ = _
        rw [inv.out, inv.off.2, inv.ts]; rfl

theorem begin_inv (c : Cfg) (t0 : Nat) (ht : t0 < 18446744073709551616) : Inv c t0 0 ⟨0, 0, t0, []⟩ := by
  refine ⟨⟨Nat.zero_le _, ?_⟩, ?_, ?_, ?_⟩
  · simp [created]
  · simp
  · simp [u64]; omega
  · simp [expected]

theorem run_inv (c : Cfg) (t0 : Nat) (hs : 0 < c.sz) (hl : c.sz ≤ c.source.length) (hd : c.drops ≠ [])
    (ht : t0 < 18446744073709551616) (n : Nat) : ∃ s, run c t0 n = .ok s ∧ Inv c t0 n s := by
  induction n with
  | zero => exact ⟨_, rfl, begin_inv c t0 ht⟩
  | succ n ih =>
    obtain ⟨s, hrun, inv⟩ := ih
    obtain ⟨s', h1, h2⟩ := iter_inv c t0 hs hl hd n inv
    exact ⟨s', by simp [run, hrun, h1], h2⟩

/-- **C47 (partial)** For every file holding at least one payload, every (non-empty) dropout pattern and
every number of iterations: the emulator never reads outside the file contents and emits exactly the
file's payloads cyclically in file order, each with the timestamp of its iteration, which advances by
the constant step of twelve ticks per iteration. Missing: files shorter than one payload and an
empty dropout pattern (undefined behaviour, see below). -/
theorem C47_cyclic_replay_partial (c : Cfg) (t0 : Nat) (hs : 0 < c.sz) (hl : c.sz ≤ c.source.length)
    (hd : c.drops ≠ []) (ht : t0 < 18446744073709551616) (n : Nat) :
    ∃ s, run c t0 n = .ok s ∧ s.out = expected c t0 n := by
  obtain ⟨s, h1, h2⟩ := run_inv c t0 hs hl hd ht n
  exact ⟨s, h1, h2.out⟩

example : expected ⟨[1, 2, 3, 4, 5], 2, 25, [true, true, false]⟩ 1000 4
    = [([1, 2], 1000), ([3, 4], 1300), ([1, 2], 1900)] := by rfl

/-- Without dropouts the `k`-th payload emitted is element `k` modulo the number of elements. -/
theorem C47_no_dropout (c : Cfg) (t0 : Nat) (hs : 0 < c.sz) (hl : c.sz ≤ c.source.length)
    (hd : c.drops = dropsOf true 0 (fun _ => true)) (ht : t0 < 18446744073709551616) (n : Nat) :
    ∃ s, run c t0 n = .ok s ∧ s.out.length = n ∧
      ∀ k, k < n → s.out[k]? = some (element c (k % numElem c), u64 (t0 + k * (c.tick * 12))) := by
  obtain ⟨s, h1, h2⟩ := C47_cyclic_replay_partial c t0 hs hl (by rw [hd]; simp [dropsOf]) ht n
  have hc : ∀ i, creates c i = true := by intro i; simp [creates, hd, dropsOf, Nat.mod_one]
  have hf : ∀ m, (List.range m).filter (creates c) = List.range m := by
    intro m; rw [List.filter_eq_self]; intro a _; exact hc a
  refine ⟨s, h1, by rw [h2]; simp [expected, hf], ?_⟩
  intro k hk
  rw [h2]
  simp [expected, hf, created, hk]

/-- Non-vacuity: two payloads of two bytes and a surplus byte, dropping every third iteration. -/
example : (run ⟨[1, 2, 3, 4, 5], 2, 25, [true, true, false]⟩ 1000 7) =
    .ok ⟨1, 1, 3100, [([1, 2], 1000), ([3, 4], 1300), ([1, 2], 1900), ([3, 4], 2200), ([1, 2], 2800)]⟩ := by
  rfl

/-- **C47 is false of the code for short files**: a file smaller than one payload is accepted (the size
check only warns) and the first payload is copied from beyond the buffer. -/
theorem C47_short_file_counterexample (c : Cfg) (t0 : Nat) (hd : c.drops = [true])
    (hl : c.source.length < c.sz) : run c t0 1 = .ub .outOfBounds := by
  have hw : wrapped c 0 = 0 := by unfold wrapped; split <;> rfl
  have h0 : (c.drops)[0]? = some true := by rw [hd]; rfl
  have hr : readAt c 0 = .ub .outOfBounds := by unfold readAt; rw [if_neg (by omega)]
  simp [run, iter, hw, h0, hr]

/-- **C47 is false of the code for an empty dropout population**: with a non-zero dropout rate and a
population size of zero the pattern is indexed out of bounds. -/
theorem C47_empty_population_counterexample (src : List Nat) (sz tick t0 : Nat) (pat : Nat → Bool) :
    run ⟨src, sz, tick, dropsOf false 0 pat⟩ t0 1 = .ub .outOfBounds := by
  simp [run, iter, dropsOf]

/-- Table indices stay within the tables. -/
def GenOk (g : Gen) : Prop := g.bi < 1000 ∧ g.oi < 1000 ∧ g.ni < 1000

/-- **C62 (safety and shape)** After any number of calls all table indices are in range, and every
error word returned is either zero or an entry of the error table. -/
theorem C62_indices_in_range (t : Tables) (n : Nat) :
    GenOk (gens t n).1 ∧ ∀ e ∈ (gens t n).2, e = 0 ∨ ∃ i, i < 1000 ∧ e = t.bits i := by
  induction n with
  | zero => exact ⟨⟨by simp [gens, gen0], by simp [gens, gen0], by simp [gens, gen0]⟩, by simp [gens]⟩
  | succ n ih =>
    obtain ⟨⟨h1, h2, h3⟩, h4⟩ := ih
    have hok : GenOk (next t (gens t n).1).1 := by
      unfold next GenOk
      simp only
      split
      · split
        · exact ⟨Nat.mod_lt _ (by decide), Nat.mod_lt _ (by decide), h3⟩
        · exact ⟨h1, h2, Nat.mod_lt _ (by decide)⟩
      · exact ⟨h1, h2, h3⟩
    refine ⟨hok, ?_⟩
    intro e he
    simp only [gens] at he
    rcases List.mem_append.1 he with he | he
    · exact h4 e he
    · simp at he
      have : (next t (gens t n).1).2 = if (next t (gens t n).1).1.set = true ∧ (next t (gens t n).1).1.cur ≠ 0
          then t.bits (next t (gens t n).1).1.bi else 0 := rfl
      rw [he, this]
      split
      · exact Or.inr ⟨_, hok.1, rfl⟩
      · exact Or.inl rfl

example : (gens ⟨fun i => i + 7, fun _ => 2, fun _ => 1⟩ 4).2 = [0, 8, 8, 0] := by decide

/-- The `k`-th stretch of clean words and the stretch of error words after it; a duration of zero still
takes one word, which is clean. -/
def stretch (t : Tables) (k : Nat) : List Nat :=
  List.replicate (max 1 (t.noOcc (k % 1000))) 0 ++
  List.replicate (max 1 (t.occ ((k + 1) % 1000)))
    (if t.occ ((k + 1) % 1000) = 0 then 0 else t.bits ((k + 1) % 1000))

theorem gens_fill (t : Tables) (n : Nat) : ∀ m, (gens t n).1.cnt + m ≤ (gens t n).1.cur →
    (gens t (n + m)).1 = { (gens t n).1 with cnt := (gens t n).1.cnt + m } ∧
    (gens t (n + m)).2 = (gens t n).2 ++ List.replicate m
      (if (gens t n).1.set = true ∧ (gens t n).1.cur ≠ 0 then t.bits (gens t n).1.bi else 0) := by
  intro m
  induction m with
  | zero => intro _; simp
  | succ m ih =>
    intro h
    obtain ⟨h1, h2⟩ := ih (by omega)
    rw [← Nat.add_assoc]
    simp only [gens]
    rw [h2, h1]
    have e : next t { (gens t n).1 with cnt := (gens t n).1.cnt + m } =
        ({ (gens t n).1 with cnt := (gens t n).1.cnt + (m + 1) },
          if (gens t n).1.set = true ∧ (gens t n).1.cur ≠ 0 then t.bits (gens t n).1.bi else 0) := by
      unfold next
      dsimp only
      rw [if_neg (by omega)]
      rfl
    rw [e, List.replicate_succ', List.append_assoc]
    exact ⟨rfl, rfl⟩

/-- A whole stretch, from a state in which the current one is over. -/
theorem gens_seg (t : Tables) (n : Nat) (hc : (gens t n).1.cur ≤ (gens t n).1.cnt) :
    ∃ g : Gen, g = (next t (gens t n).1).1 ∧
    (gens t (n + max 1 g.cur)).1 = { g with cnt := max 1 g.cur } ∧
    (gens t (n + max 1 g.cur)).2 = (gens t n).2 ++ List.replicate (max 1 g.cur)
      (if g.set = true ∧ g.cur ≠ 0 then t.bits g.bi else 0) := by
  refine ⟨_, rfl, ?_⟩
  have hcnt : (next t (gens t n).1).1.cnt = 1 := by
    unfold next; dsimp only; rw [if_pos hc]; split <;> rfl
  have hfill := gens_fill t (n + 1) ((next t (gens t n).1).1.cur - 1)
  have e1 : (gens t (n + 1)).1 = (next t (gens t n).1).1 := rfl
  have e2 : (gens t (n + 1)).2 = (gens t n).2 ++ [(next t (gens t n).1).2] := rfl
  have e3 : (next t (gens t n).1).2 = if (next t (gens t n).1).1.set = true ∧ (next t (gens t n).1).1.cur ≠ 0
      then t.bits (next t (gens t n).1).1.bi else 0 := rfl
  rw [e1, e2, e3] at hfill
  generalize next t (gens t n).1 = r at *
  obtain ⟨g, w⟩ := r
  dsimp only at *
  by_cases h0 : g.cur = 0
  · have : max 1 g.cur = 1 := by omega
    rw [this]
    refine ⟨?_, by rw [e2, e3]; rfl⟩
    rw [e1, ← hcnt]
  · have hm : max 1 g.cur = g.cur := by omega
    obtain ⟨f1, f2⟩ := hfill (by omega)
    have e : n + 1 + (g.cur - 1) = n + max 1 g.cur := by omega
    rw [e] at f1 f2
    refine ⟨by rw [f1, hcnt]; congr 1; omega, ?_⟩
    rw [f2, List.append_assoc]
    congr 1
    rw [hm]
    conv => rhs; rw [show g.cur = (g.cur - 1) + 1 by omega, List.replicate_succ]
    rw [show g.cur - 1 + 1 = g.cur by omega]
    rfl

theorem gens_stretches (t : Tables) (K : Nat) :
    (gens t ((List.range K).flatMap (stretch t)).length).2 = (List.range K).flatMap (stretch t) ∧
    ∃ c d, c ≤ d ∧ (gens t ((List.range K).flatMap (stretch t)).length).1 =
      ⟨K % 1000, K % 1000, K % 1000, c, d, true⟩ := by
  induction K with
  | zero => exact ⟨rfl, 0, 0, by omega, rfl⟩
  | succ K ih =>
    obtain ⟨h1, c, d, hcd, h2⟩ := ih
    rw [List.range_succ, List.flatMap_append, List.flatMap_singleton]
    generalize hn : ((List.range K).flatMap (stretch t)).length = n at *
    obtain ⟨g, hg, a1, a2⟩ := gens_seg t n (by rw [h2]; exact hcd)
    have hg' : g = ⟨(K + 1) % 1000, (K + 1) % 1000, K % 1000, t.noOcc (K % 1000), 1, false⟩ := by
      rw [hg, h2]; unfold next; dsimp only; rw [if_pos hcd]; simp
    obtain ⟨g2, hg2, b1, b2⟩ := gens_seg t (n + max 1 g.cur) (by rw [a1]; dsimp only; omega)
    have hg2' : g2 = ⟨(K + 1) % 1000, (K + 1) % 1000, (K + 1) % 1000, t.occ ((K + 1) % 1000), 1, true⟩ := by
      rw [hg2, a1, hg']; unfold next; dsimp only; rw [if_pos (by omega)]; simp
    have hl : ((List.range K).flatMap (stretch t) ++ stretch t K).length = n + max 1 g.cur + max 1 g2.cur := by
      rw [List.length_append, hn, hg', hg2']; simp [stretch]; omega
    rw [hl, b2, a2, h1, b1]
    subst hg'; subst hg2'
    refine ⟨?_, _, _, Nat.le_max_right 1 _, rfl⟩
    rw [List.append_assoc]
    congr 1
    simp only [stretch]
    congr 1
    · simp

theorem gens_prefix (t : Tables) (n : Nat) : ∀ m, (gens t n).2 <+: (gens t (n + m)).2 := by
  intro m
  induction m with
  | zero => exact List.prefix_rfl
  | succ m ih => exact ih.trans ⟨_, rfl⟩

theorem gens_length (t : Tables) (n : Nat) : (gens t n).2.length = n := by
  induction n with
  | zero => rfl
  | succ n ih => simp [gens, ih]

/-- **C62 (which words)** For every three tables the words are exactly the stretches one after the other:
as many clean words as the next entry of the table of clean durations says, then the next error word
as often as the next entry of the table of error durations says (one word at least, each). -/
theorem C62_stretches (t : Tables) (n : Nat) :
    (gens t n).2 = ((List.range n).flatMap (stretch t)).take n := by
  have hl : ∀ K, K ≤ ((List.range K).flatMap (stretch t)).length := by
    intro K
    induction K with
    | zero => omega
    | succ K ih =>
      rw [List.range_succ, List.flatMap_append, List.length_append, List.flatMap_singleton]
      have : 1 ≤ (stretch t K).length := by simp [stretch]; omega
      omega
  have h := (gens_stretches t n).1
  have hp := gens_prefix t n (((List.range n).flatMap (stretch t)).length - n)
  rw [Nat.add_sub_cancel' (hl n), h] at hp
  have := List.prefix_iff_eq_take.1 hp
  rwa [gens_length] at this

/-- Clean stretches of 3, error stretches of 2 words. -/
example : (gens ⟨fun i => i + 7, fun _ => 2, fun _ => 3⟩ 9).2 = [0, 0, 0, 8, 8, 0, 0, 0, 9] := by decide

/-- **C62 (an error rate of zero produces no errors)** If all error durations are zero (which is what
`generate` produces for rate zero), no error word is ever produced. -/
theorem C62_rate_zero (t : Tables) (h : ∀ i, t.occ i = 0) (n : Nat) : ∀ e ∈ (gens t n).2, e = 0 := by
  have key : ∀ n, ((gens t n).1.set = true → (gens t n).1.cur = 0) ∧ ∀ e ∈ (gens t n).2, e = 0 := by
    intro n
    induction n with
    | zero => exact ⟨fun _ => rfl, by simp [gens]⟩
    | succ n ih =>
      have hn : (next t (gens t n).1).1.set = true → (next t (gens t n).1).1.cur = 0 := by
        unfold next
        simp only
        split
        · split
          · intro h'; simp at h'
          · intro _; exact h _
        · exact ih.1
      refine ⟨hn, ?_⟩
      intro e he
      simp only [gens] at he
      rcases List.mem_append.1 he with he | he
      · exact ih.2 e he
      · simp at he
        have : (next t (gens t n).1).2 = if (next t (gens t n).1).1.set = true ∧ (next t (gens t n).1).1.cur ≠ 0
            then t.bits (next t (gens t n).1).1.bi else 0 := rfl
        rw [he, this, if_neg]
        rintro ⟨h1, h2⟩
        exact h2 (hn h1)
  exact (key n).2

/-- Durations zero for errors, one for clean words. -/
example : (gens ⟨fun i => i + 7, fun _ => 0, fun _ => 1⟩ 5).2 = [0, 0, 0, 0, 0] := by decide

/-- **C62 is false of the code for rate one**: with clean durations of zero (which is what `generate`
produces for rate one) the very first word, and one word between any two bursts, is still clean,
whatever the error table. -/
theorem C62_rate_one_counterexample (b : Nat → Nat) :
    (gens ⟨b, fun _ => 2, fun _ => 0⟩ 7).2 = [0, b 1, b 1, 0, b 2, b 2, 0] := by
  simp [gens, next, gen0]

/-- Non-vacuity: durations of two error words and one clean word alternate. -/
example : (gens ⟨fun i => i + 7, fun _ => 2, fun _ => 1⟩ 7).2 = [0, 8, 8, 0, 9, 9, 0] := by decide

end Verif.Emu
