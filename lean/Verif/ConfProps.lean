import Verif.ConfModel
import Mathlib.Data.List.Induction
/- Properties C72 (rejected configuration), C73 (a full buffer is relieved), C74 (recording file). -/
namespace Verif.Conf
open Verif.Ring Verif.Registry
variable {P : Type}

/-- Rounding with the accuracy of single precision. -/
structure Single (rnd : ℚ → ℚ) : Prop where
  hi : ∀ x, 0 ≤ x → rnd x ≤ x * (1 + 1 / 16777216)
  lo : ∀ x, 0 ≤ x → x * (1 - 1 / 16777216) ≤ rnd x

theorem single_id : Single id :=
  ⟨fun x hx => by simp only [id]; nlinarith, fun x hx => by simp only [id]; nlinarith⟩

/-- Small multiples of a quarter are represented exactly. -/
def SmallExact (rnd : ℚ → ℚ) : Prop := ∀ k : ℕ, k ≤ 64 → rnd (k / 4) = k / 4

theorem smallExact_id : SmallExact id := fun _ _ => rfl

theorem Single.nonneg {rnd : ℚ → ℚ} (h : Single rnd) {x : ℚ} (hx : 0 ≤ x) : 0 ≤ rnd x := by
  have := h.lo x hx; nlinarith

/-- **C72 (partial)** Out-of-range fractions are reported and the occupancy at which cleanups begin
stays as it was. Missing: the fraction to be removed, which is replaced nevertheless. -/
theorem C72_limit_kept_partial (rnd : ℚ → ℚ) (h : Handler) (p : Params)
    (hbad : ¬ Cleanup.Accepted p.limitPct p.sizePct) :
    (conf rnd h p).2 = true ∧ (conf rnd h p).1.limitSize = h.limitSize := by
  have : outOfRange p = true := by
    by_contra hc
    apply hbad
    simp only [outOfRange, Bool.or_eq_true, decide_eq_true_eq, not_or, not_lt] at hc
    exact ⟨hc.1.1.1, hc.1.1.2, hc.1.2, hc.2⟩
  refine ⟨this, ?_⟩
  simp only [conf, this, if_true]
  split <;> rfl

example : ¬ Cleanup.Accepted (1/2) (3/2) := fun h => absurd h.2.2.2 (by norm_num)

/-- An accepted configuration is not reported. -/
theorem C72_accepted_not_reported (rnd : ℚ → ℚ) (h : Handler) (p : Params)
    (hok : Cleanup.Accepted p.limitPct p.sizePct) :
    (conf rnd h p).2 = false ∧ (conf rnd h p).1.limitSize = limitOf rnd p.limitPct p.capacity ∧
      (conf rnd h p).1.sizePct = p.sizePct := by
  obtain ⟨h1, h2, h3, h4⟩ := hok
  have : outOfRange p = false := by
    simp [outOfRange, not_lt.2 h1, not_lt.2 h2, not_lt.2 h3, not_lt.2 h4]
  refine ⟨this, ?_⟩
  simp only [conf, this, Bool.false_eq_true, if_false]
  split <;> exact ⟨rfl, rfl⟩

example : Cleanup.Accepted (1/2) (4/5) := by constructor <;> norm_num

/-- **C72 is false of the code**: a handler with a good configuration (limit 1 of 4, half of the
contents to be removed) cleans up properly; after a second configuration which is reported as out of
range the same cleanup empties the buffer and dereferences its absent front. -/
theorem C72_rejected_conf_counterexample (rnd : ℚ → ℚ) (hx : SmallExact rnd) :
    let good : Params := ⟨1/4, 1/2, 4, false, "a"⟩
    let bad : Params := ⟨1/4, 3/2, 4, false, "a"⟩
    let q := Search.demo 1000 1300 2500
    (conf rnd Handler.new good).2 = false ∧
    (cleanupWith rnd id (conf rnd Handler.new good).1 q []).IsOk ∧
    (conf rnd (conf rnd Handler.new good).1 bad).2 = true ∧
    cleanupWith rnd id (conf rnd (conf rnd Handler.new good).1 bad).1 q [] = .ub .nullDeref := by
  intro good bad q
  have h1 : rnd 1 = 1 := by simpa using hx 4 (by norm_num)
  have h3 : rnd 3 = 3 := by have := hx 12 (by norm_num); norm_num at this; exact this
  have h4 : rnd 4 = 4 := by have := hx 16 (by norm_num); norm_num at this; exact this
  have hh : rnd (3/2) = 3/2 := by have := hx 6 (by norm_num); norm_num at this; exact this
  have hq : rnd (9/2) = 9/2 := by have := hx 18 (by norm_num); norm_num at this; exact this
  have g1 : outOfRange good = false := by simp [outOfRange, good]; norm_num
  have g2 : outOfRange bad = true := by simp [outOfRange, bad]; norm_num
  have l1 : limitOf rnd (1/4) 4 = 1 := by
    simp only [limitOf, Nat.cast_ofNat, h4]
    norm_num [h1]
  have hocc : q.occupancy = 3 := rfl
  have p1 : Cleanup.toPopOf rnd (1/2) 3 = 1 := by
    simp only [Cleanup.toPopOf, Nat.cast_ofNat, h3]
    rw [show (1/2 : ℚ) * 3 = 3/2 by norm_num, hh]
    rw [Nat.floor_eq_iff (by norm_num)]; norm_num
  have p2 : Cleanup.toPopOf rnd (3/2) 3 = 4 := by
    simp only [Cleanup.toPopOf, Nat.cast_ofNat, h3]
    rw [show (3/2 : ℚ) * 3 = 9/2 by norm_num, hq]
    rw [Nat.floor_eq_iff (by norm_num)]; norm_num
  have c1 : (conf rnd Handler.new good).1 = ⟨1/4, 1/2, 1, false, none⟩ := by
    simp only [conf, g1, Bool.false_eq_true, if_false, good, Bool.false_and, l1]; rfl
  have c2 : (conf rnd (conf rnd Handler.new good).1 bad).1 = ⟨1/4, 3/2, 1, false, none⟩ := by
    rw [c1]
    simp only [conf, g2, if_true, bad, Bool.false_and, Bool.false_eq_true, if_false]
  refine ⟨g1, ?_, g2, ?_⟩
  · rw [c1]; simp only [cleanupWith, hocc, p1]; exact ⟨_, rfl⟩
  · rw [c2]; simp only [cleanupWith, hocc, p2]; rfl

/-! ### C73 -/

theorem toPop_pos {rnd : ℚ → ℚ} (hs : Single rnd) {pct : ℚ} (h0 : 0 ≤ pct) {occ : Nat}
    (h : 2 ≤ pct * occ) : 1 ≤ Cleanup.toPopOf rnd pct occ := by
  rw [Cleanup.toPopOf, Nat.le_floor_iff (hs.nonneg (mul_nonneg h0 (hs.nonneg (Nat.cast_nonneg _))))]
  have e1 := hs.lo (occ : ℚ) (Nat.cast_nonneg _)
  have e2 := hs.lo (pct * rnd occ) (mul_nonneg h0 (hs.nonneg (Nat.cast_nonneg _)))
  have e3 : pct * (occ * (1 - 1 / 16777216)) ≤ pct * rnd occ := mul_le_mul_of_nonneg_left e1 h0
  push_cast
  nlinarith

theorem toPop_lt {rnd : ℚ → ℚ} (hs : Single rnd) {pct : ℚ} (h0 : 0 ≤ pct)
    (h1 : pct ≤ 1 - 1 / 4194304) (ts : P → Nat) (limit : Nat) (q : Ring.Ring P) (l : List P)
    (h : Repr q l) (reg : Reg) :
    (Cleanup.cleanup ts limit (Cleanup.toPopOf rnd pct q.occupancy) 18446744073709551615 q reg).IsOk :=
  Cleanup.C22_cleanup_safe_partial rnd hs.hi (fun _ hx => hs.nonneg hx) pct h0 h1 ts limit _ q l h reg

/-- One cleanup above the limit removes something. -/
theorem cleanup_removes {rnd : ℚ → ℚ} (hs : Single rnd) (h : Handler) (h0 : 0 ≤ h.sizePct)
    (h1 : h.sizePct ≤ 1 - 1 / 4194304) (ts : P → Nat) (q : Ring.Ring P) (l : List P) (hr : Repr q l)
    (hlim : h.limitSize < l.length) (hpop : 2 ≤ h.sizePct * l.length)
    (hts : ∀ x ∈ l, ts x < 18446744073709551615) (reg : Reg) :
    ∃ r, cleanupWith rnd ts h q reg = .ok r ∧ Repr r.q (l.drop r.popped) ∧ 1 ≤ r.popped ∧
      r.popped ≤ l.length ∧ r.q.size = q.size := by
  obtain ⟨r, e⟩ := toPop_lt hs h0 h1 ts h.limitSize q l hr reg
  obtain ⟨g1, g2, g3, -, -, g6, -, -, g9⟩ := Cleanup.C21_cleanup_prefix ts _ _ _ q l hr reg r e
  refine ⟨r, e, g1, ?_, g3, g9⟩
  rcases g6 hlim with g6 | ⟨a, ha, hna⟩
  · rw [g6, hr.occ]; exact toPop_pos hs h0 hpop
  · have := hts a (List.mem_of_getElem? ha); omega

theorem limit_lt {rnd : ℚ → ℚ} (hs : Single rnd) {pct : ℚ} (h0 : 0 ≤ pct) {n : Nat}
    (h : 2 ≤ (1 - pct) * n) (hn : n ≤ 4194304) : limitOf rnd pct n < n - 1 := by
  have hnq : (n : ℚ) ≤ 4194304 := by exact_mod_cast hn
  have hn0 : (0 : ℚ) ≤ n := Nat.cast_nonneg _
  have hn2 : 2 ≤ n := by
    have : (2 : ℚ) ≤ n := by nlinarith
    exact_mod_cast this
  have e1 := hs.hi (n : ℚ) hn0
  have p1 := hs.nonneg hn0
  have e2 := hs.hi (pct * rnd n) (mul_nonneg h0 p1)
  have e3 : pct * rnd n ≤ pct * (n * (1 + 1 / 16777216)) := mul_le_mul_of_nonneg_left e1 h0
  rw [limitOf, Nat.floor_lt (hs.nonneg (mul_nonneg h0 p1))]
  have hc : ((n - 1 : ℕ) : ℚ) = (n : ℚ) - 1 := by rw [Nat.cast_sub (by omega)]; simp
  rw [hc]
  have e4 : pct * n ≤ n - 2 := by nlinarith
  nlinarith

/-- **C73 (partial)** A handler is given an accepted configuration naming the true size `n` of the
buffer, with a limit at least two places below it and a removal fraction amounting to at least two
payloads of a full buffer (and not within 2^-22 of one). Then, whenever the buffer is full and no
recording holds it, the next cleanup completes and the next payload is stored. Missing: accepted
configurations outside these bounds, where the claim is false. -/
theorem C73_full_buffer_relieved_partial (rnd : ℚ → ℚ) (hs : Single rnd) (h : Handler) (p : Params)
    (hok : Cleanup.Accepted p.limitPct p.sizePct) (n : Nat) (hcap : p.capacity = n)
    (hn : n ≤ 4194304) (hlim : 2 ≤ (1 - p.limitPct) * n) (hpop : 2 ≤ p.sizePct * (n - 1 : ℕ))
    (hmax : p.sizePct ≤ 1 - 1 / 4194304) (ts : P → Nat) (q : Ring.Ring P) (l : List P)
    (hr : Repr q l) (hsz : q.size = n) (hfull : l.length = n - 1)
    (hts : ∀ x ∈ l, ts x < 18446744073709551615) (reg : Reg) :
    ∃ r, cleanupWith rnd ts (conf rnd h p).1 q reg = .ok r ∧ Repr r.q (l.drop r.popped) ∧
      ∀ a, ∃ q', r.q.write a = .ok (q', true) := by
  obtain ⟨-, c1, c2⟩ := C72_accepted_not_reported rnd h p hok
  have hl := limit_lt hs hok.1 hlim hn
  obtain ⟨r, e, g1, g2, g3, g4⟩ := cleanup_removes hs (conf rnd h p).1 (by rw [c2]; exact hok.2.2.1)
    (by rw [c2]; exact hmax) ts q l hr (by rw [c1, hcap, hfull]; exact hl)
    (by rw [c2, hfull]; exact hpop) hts reg
  refine ⟨r, e, g1, fun a => ?_⟩
  obtain ⟨q', hq', -⟩ := write_ok g1 a (by rw [List.length_drop, g4, hsz]; omega)
  exact ⟨q', hq'⟩

/-- The default configuration (half full, remove 80 %) and the one written by app_confgen.py (80 % full,
remove 10 %) meet these conditions for the default size. -/
example : (Cleanup.Accepted (1/2) (4/5) ∧ (2:ℚ) ≤ (1 - 1/2) * (100000 : ℕ) ∧
      (2:ℚ) ≤ 4/5 * (100000 - 1 : ℕ) ∧ (4/5 : ℚ) ≤ 1 - 1 / 4194304) ∧
    (Cleanup.Accepted (4/5) (1/10) ∧ (2:ℚ) ≤ (1 - 4/5) * (100000 : ℕ) ∧
      (2:ℚ) ≤ 1/10 * (100000 - 1 : ℕ) ∧ (1/10 : ℚ) ≤ 1 - 1 / 4194304) ∧ Single id := by
  refine ⟨⟨⟨?_, ?_, ?_, ?_⟩, ?_, ?_, ?_⟩, ⟨⟨?_, ?_, ?_, ?_⟩, ?_, ?_, ?_⟩, single_id⟩ <;> norm_num

/-- **C73 is false of the code**: the accepted configurations (1) limit fraction 1, (2) removal fraction
0, (3) a size differing from that of the buffer leave a full buffer of size 4 full; every further
payload is refused for good. -/
theorem C73_never_relieved_counterexample (rnd : ℚ → ℚ) (hx : SmallExact rnd) (p : Params)
    (hp : p = ⟨1, 1/2, 4, false, ""⟩ ∨ p = ⟨1/2, 0, 4, false, ""⟩ ∨ p = ⟨1/2, 1/2, 8, false, ""⟩)
    (h : Handler) (k : Nat) :
    (conf rnd h p).2 = false ∧
    ∃ q reg, cleanups rnd id (conf rnd h p).1 k (Search.demo 1000 1300 2500) [] = .ok (q, reg) ∧
      ∀ a, ∃ q', q.write a = .ok (q', false) := by
  have h0 : rnd 0 = 0 := by have := hx 0 (by norm_num); norm_num at this; exact this
  have h2 : rnd 2 = 2 := by have := hx 8 (by norm_num); norm_num at this; exact this
  have h3 : rnd 3 = 3 := by have := hx 12 (by norm_num); norm_num at this; exact this
  have h4 : rnd 4 = 4 := by have := hx 16 (by norm_num); norm_num at this; exact this
  have h8 : rnd 8 = 8 := by have := hx 32 (by norm_num); norm_num at this; exact this
  have hok : Cleanup.Accepted p.limitPct p.sizePct := by
    rcases hp with rfl | rfl | rfl <;> (constructor <;> norm_num)
  obtain ⟨c0, c1, c2⟩ := C72_accepted_not_reported rnd h p hok
  refine ⟨c0, ?_⟩
  have hrep := Search.demo_repr 1000 1300 2500
  have hone : ∀ reg, ∃ reg', cleanupWith rnd id (conf rnd h p).1 (Search.demo 1000 1300 2500) reg =
      .ok ⟨Search.demo 1000 1300 2500, reg', 0⟩ := by
    intro reg
    have hocc : (Search.demo 1000 1300 2500).occupancy = 3 := rfl
    rcases hp with rfl | rfl | rfl
    · have : limitOf rnd 1 4 = 4 := by
        simp only [limitOf, Nat.cast_ofNat, h4, one_mul]; norm_num
      refine ⟨reg, ?_⟩
      simp only [cleanupWith, c1, this, Cleanup.cleanup, hocc]
      rfl
    · have : limitOf rnd (1/2) 4 = 2 := by
        simp only [limitOf, Nat.cast_ofNat, h4]; norm_num [h2]
      have h5 : Cleanup.toPopOf rnd 0 3 = 0 := by simp [Cleanup.toPopOf, h0]
      refine ⟨removeErrorsUntil reg 1000, ?_⟩
      simp only [cleanupWith, c1, c2, this, hocc, h5]
      rfl
    · have : limitOf rnd (1/2) 8 = 4 := by
        simp only [limitOf, Nat.cast_ofNat, h8]; norm_num [h4]
      refine ⟨reg, ?_⟩
      simp only [cleanupWith, c1, this, Cleanup.cleanup, hocc]
      rfl
  have hall : ∀ k reg, ∃ reg', cleanups rnd id (conf rnd h p).1 k (Search.demo 1000 1300 2500) reg =
      .ok (Search.demo 1000 1300 2500, reg') := by
    intro k
    induction k with
    | zero => intro reg; exact ⟨reg, rfl⟩
    | succ k ih =>
      intro reg
      obtain ⟨r1, e1⟩ := hone reg
      obtain ⟨r2, e2⟩ := ih r1
      exact ⟨r2, by simp only [cleanups, e1, Outcome.bind_ok]; exact e2⟩
  obtain ⟨reg', e⟩ := hall k []
  exact ⟨_, _, e, fun a => ⟨_, write_full hrep a (by simp [Search.demo])⟩⟩

example : SmallExact id := smallExact_id

/-- **C73 (draining, partial)** If the removal fraction amounts to at least two payloads just above the
limit, repeated cleanups of any buffer bring its occupancy down to the limit, losing only oldest data.
Missing: smaller fractions, for which it stays above the limit. -/
theorem C73_drains_to_limit_partial (rnd : ℚ → ℚ) (hs : Single rnd) (h : Handler) (h0 : 0 ≤ h.sizePct)
    (h1 : h.sizePct ≤ 1 - 1 / 4194304) (hpop : 2 ≤ h.sizePct * (h.limitSize + 1 : ℕ)) (ts : P → Nat)
    (q : Ring.Ring P) (l : List P) (hr : Repr q l) (hts : ∀ x ∈ l, ts x < 18446744073709551615)
    (reg : Reg) :
    ∃ k q' reg' l', cleanups rnd ts h k q reg = .ok (q', reg') ∧ Repr q' l' ∧ l' <:+ l ∧
      l'.length ≤ h.limitSize ∧ k ≤ l.length := by
  generalize hm : l.length = m
  induction m using Nat.strong_induction_on generalizing q l reg with
  | _ m ih =>
    by_cases hlim : h.limitSize < l.length
    · have hp2 : 2 ≤ h.sizePct * l.length := by
        have : ((h.limitSize + 1 : ℕ) : ℚ) ≤ (l.length : ℚ) := by exact_mod_cast hlim
        have := mul_le_mul_of_nonneg_left this h0
        linarith
      obtain ⟨r, e, g1, g2, g3, -⟩ := cleanup_removes hs h h0 h1 ts q l hr hlim hp2 hts reg
      obtain ⟨k, q', reg', l', e1, e2, e3, e4, e5⟩ := ih (l.drop r.popped).length
        (by rw [List.length_drop]; omega) r.q _ g1 (fun x hx => hts x (List.mem_of_mem_drop hx)) r.reg rfl
      refine ⟨k + 1, q', reg', l', ?_, e2, e3.trans (List.drop_suffix _ _), e4, ?_⟩
      · simp only [cleanups, e, Outcome.bind_ok]; exact e1
      · rw [List.length_drop] at e5; omega
    · exact ⟨0, q, reg, l, rfl, hr, List.suffix_refl _, by omega, Nat.zero_le _⟩

example : (0:ℚ) ≤ 4/5 ∧ (4/5:ℚ) ≤ 1 - 1 / 4194304 ∧ (2:ℚ) ≤ 4/5 * (2 + 1 : ℕ) ∧ Single id ∧
    Repr (Search.demo 1000 1300 2500) [1000, 1300, 2500] :=
  ⟨by norm_num, by norm_num, by norm_num, single_id, Search.demo_repr _ _ _⟩

/-! ### C74 -/

theorem conf_file (rnd : ℚ → ℚ) (h : Handler) (p : Params) :
    (conf rnd h p).1.openFile = (if p.recording && !h.recConfigured then some p.file else h.openFile) ∧
    (conf rnd h p).1.recConfigured = (p.recording || h.recConfigured) := by
  obtain ⟨a, b, c, d, e⟩ := h
  simp only [conf]
  cases hb : outOfRange p <;> cases hp : p.recording <;> cases d <;> simp

/-- **C74 (partial)** After the first configuration of a link that enables raw recording, recordings go to
the file it names; with no such configuration the record command is refused. Missing: later
configurations. -/
theorem C74_first_conf_partial (rnd : ℚ → ℚ) (ps : List Params) (hno : ∀ p ∈ ps, p.recording = false)
    (p : Params) :
    recordTarget (confs rnd Handler.new ps) = none ∧
    recordTarget (confs rnd Handler.new (ps ++ [p])) = if p.recording then some p.file else none := by
  have key : (confs rnd Handler.new ps).openFile = none ∧
      (confs rnd Handler.new ps).recConfigured = false := by
    induction ps using List.reverseRecOn with
    | nil => exact ⟨rfl, rfl⟩
    | append_singleton l a ih =>
      have ih := ih (fun x hx => hno x (by simp [hx]))
      have ha : a.recording = false := hno a (by simp)
      simp only [confs, List.foldl_append, List.foldl_cons, List.foldl_nil] at ih ⊢
      rw [(conf_file _ _ _).1, (conf_file _ _ _).2, ha]
      exact ih
  refine ⟨key.1, ?_⟩
  simp only [confs, List.foldl_append, List.foldl_cons, List.foldl_nil, recordTarget] at key ⊢
  rw [(conf_file _ _ _).1, key.1, key.2]
  simp

example : (⟨1/2, 4/5, 10, false, "a"⟩ : Params).recording = false := rfl

/-- **C74 is false of the code**: a second configuration (also after a scrap) naming another file, or
switching raw recording off, has no effect; the next recording still goes to the first file. -/
theorem C74_second_conf_counterexample (rnd : ℚ → ℚ) :
    recordTarget (confs rnd Handler.new [⟨1/2, 4/5, 10, true, "run1"⟩, ⟨1/2, 4/5, 10, true, "run2"⟩]) =
      some "run1" ∧
    recordTarget (confs rnd Handler.new [⟨1/2, 4/5, 10, true, "run1"⟩, ⟨1/2, 4/5, 10, false, "run2"⟩]) =
      some "run1" := by
  simp only [recordTarget, confs, List.foldl_cons, List.foldl_nil]
  refine ⟨?_, ?_⟩ <;>
    rw [(conf_file _ _ _).1, (conf_file _ _ _).1, (conf_file _ _ _).2] <;> rfl

end Verif.Conf
