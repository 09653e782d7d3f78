import Verif.PipelineModel
import Verif.TsCheckProps
import Verif.CleanupProps
import Verif.SearchProps
/- Property C24: gaps in the buffer are flagged. -/
namespace Verif.Pipeline
open Verif.Ring Verif.Registry Verif.TsCheck Verif.Search

/-- Received timestamps strictly increase and fit in 64 bits. -/
def Increasing64 (ts : List Nat) : Prop :=
  ts.Pairwise (· < ·) ∧ ∀ t ∈ ts, t < 18446744073709551616

/-- Every gap between neighbours in the buffer is covered by a registered interval that ends at or
after it. -/
def Flagged (step : Nat) (reg : Reg) (l : List Nat) : Prop :=
  ∀ (k a b : Nat), l[k]? = some a → l[k+1]? = some b → b ≠ a + step →
    ∃ iv, ("MISSING_FRAMES", iv) ∈ reg ∧ b ≤ iv.endTs

structure Inv (step n : Nat) (s : St) (ts : List Nat) (l : List Nat) : Prop where
  repr : Repr s.q l
  size : s.q.size = n
  prev : ∀ a, ts.getLast? = some a → s.ck.prev = a
  suf : l <:+ ts
  flag : Flagged step s.ck.reg l

theorem pairwise_get {ts : List Nat} (h : ts.Pairwise (· < ·)) {i j a b : Nat} (hij : i < j)
    (ha : ts[i]? = some a) (hb : ts[j]? = some b) : a < b := by
  obtain ⟨h1, e1⟩ := List.getElem?_eq_some_iff.1 ha
  obtain ⟨h2, e2⟩ := List.getElem?_eq_some_iff.1 hb
  have := List.pairwise_iff_getElem.1 h i j h1 h2 hij
  rw [e1, e2] at this; exact this

theorem overflow_mono {step : Nat} {s s' : St} {t : Nat} {b : Bool}
    (he : receive step s t = .ok (s', b)) : s.q.overflow ≤ s'.q.overflow := by
  unfold receive Ring.write Ring.construct at he
  simp only at he
  split at he
  · split at he
    · split at he
      · simp at he
      · simp at he; rw [← he.1]
    · simp at he
  · simp at he; rw [← he.1]; exact Nat.le_succ _

theorem repr_reach (step n : Nat) (hn : 2 ≤ n) {s : St} {ts : List Nat} (h : Reach step n s ts) :
    ∃ l, Repr s.q l ∧ s.q.size = n := by
  induction h with
  | start r0 => exact ⟨[], repr_init n hn, rfl⟩
  | receive s s' ts t b _ he ih =>
    obtain ⟨l, hr, hs⟩ := ih
    by_cases hf : l.length < s.q.size - 1
    · obtain ⟨q1, e1, r1, s1, -, o1, -⟩ := write_ok hr t hf
      simp only [receive, e1, Outcome.bind_ok] at he
      injection he with he
      injection he with he1 he2
      subst he1
      exact ⟨_, r1, s1.trans hs⟩
    · have e1 := write_full hr t hf
      simp only [receive, e1, Outcome.bind_ok] at he
      injection he with he
      injection he with he1 he2
      subst he1
      exact ⟨l, repr_overflow hr _, hs⟩
  | clean s s' ts limit toPop next _ he ih =>
    obtain ⟨l, hr, hs⟩ := ih
    cases hc : Cleanup.cleanup id limit toPop next s.q s.ck.reg with
    | ub w => simp [clean, hc] at he
    | throws w => simp [clean, hc] at he
    | ok r =>
      simp only [clean, hc, Outcome.bind_ok] at he
      injection he with he; subst he
      obtain ⟨h1, -, -, -, -, -, -, -, h9⟩ :=
        Cleanup.C21_cleanup_prefix id limit toPop next s.q l hr s.ck.reg r hc
      exact ⟨_, h1, h9.trans hs⟩

theorem inv_receive {step n : Nat} (hst : step < 18446744073709551616) {s s' : St} {ts l : List Nat}
    {t : Nat} {b : Bool} (inv : Inv step n s ts l) (hi : Increasing64 (ts ++ [t]))
    (he : receive step s t = .ok (s', b)) (ho : s'.q.overflow ≤ s.q.overflow) :
    Inv step n s' (ts ++ [t]) (l ++ [t]) := by
  have hr := inv.repr
  by_cases hf : l.length < s.q.size - 1
  · obtain ⟨q1, e1, r1, s1, -, o1, -⟩ := write_ok hr t hf
    simp only [receive, e1, Outcome.bind_ok] at he
    injection he with he
    injection he with he1 he2
    subst he1
    refine ⟨r1, s1.trans inv.size, ?_, ?_, ?_⟩
    · simp [check]
    · obtain ⟨u, hu⟩ := inv.suf; exact ⟨u, by rw [← hu]; simp⟩
    · intro k a c ha hc hne
      have hmem : ∀ e, e ∈ s.ck.reg → e.1 = "MISSING_FRAMES" →
          u64 (t + 18446744073709551616 - s.ck.prev) = step → e ∈ (check step s.ck t).reg := by
        intro e hm _ h'; simp only [check, h']; simpa using hm
      have hadd : u64 (t + 18446744073709551616 - s.ck.prev) ≠ step →
          ("MISSING_FRAMES", Interval.mk (u64 (s.ck.prev + step)) t) ∈ (check step s.ck t).reg := by
        intro h'; simp [check, h', addError]
      have hct : c ≤ t := by
        by_cases hk : k + 1 < l.length
        · rw [List.getElem?_append_left hk] at hc
          have hm := inv.suf.subset (List.mem_of_getElem? hc)
          have := (List.pairwise_append.1 hi.1).2.2 c hm t (by simp)
          omega
        · rw [List.getElem?_append_right (by omega)] at hc
          cases hk' : k + 1 - l.length with
          | zero => rw [hk'] at hc; simp at hc; omega
          | succ m => rw [hk'] at hc; simp at hc
      by_cases hout : u64 (t + 18446744073709551616 - s.ck.prev) = step
      · by_cases hk : k + 1 < l.length
        · rw [List.getElem?_append_left hk] at hc
          rw [List.getElem?_append_left (by omega)] at ha
          obtain ⟨iv, h1, h2⟩ := inv.flag k a c ha hc hne
          exact ⟨iv, hmem _ h1 rfl hout, h2⟩
        · exfalso
          have hk2 : k + 1 = l.length := by
            have := getElem?_lt hc; simp at this; omega
          rw [List.getElem?_append_right (by omega), hk2] at hc
          simp at hc
          subst hc
          rw [List.getElem?_append_left (by omega)] at ha
          have hlast : ts.getLast? = some a := by
            obtain ⟨u, hu⟩ := inv.suf
            have hl : l.getLast? = some a := by
              rw [List.getLast?_eq_getElem?, show l.length - 1 = k by omega]; exact ha
            rw [← hu, List.getLast?_append, hl]; rfl
          have hprev : s.ck.prev = a := inv.prev a hlast
          have hat : a < t := (List.pairwise_append.1 hi.1).2.2 a (List.mem_of_getLast? hlast) t (by simp)
          have hb := hi.2 t (by simp)
          have := (sub_test (by omega) hb hst).1 hout
          rw [hprev] at this
          omega
      · exact ⟨_, hadd hout, hct⟩
  · exfalso
    have e1 := write_full hr t hf
    simp only [receive, e1, Outcome.bind_ok] at he
    injection he with he
    injection he with he1 he2
    subst he1
    simp at ho

theorem inv_clean {step n : Nat} {s s' : St} {ts l : List Nat} {limit toPop next : Nat}
    (inv : Inv step n s ts l) (hi : Increasing64 ts) (he : clean limit toPop next s = .ok s') :
    ∃ k, Inv step n s' ts (l.drop k) := by
  cases hc : Cleanup.cleanup id limit toPop next s.q s.ck.reg with
  | ub w => simp [clean, hc] at he
  | throws w => simp [clean, hc] at he
  | ok r =>
    simp only [clean, hc, Outcome.bind_ok] at he
    injection he with he; subst he
    obtain ⟨h1, h2, h3, h4, h5, h6, h7, h8, h9⟩ :=
      Cleanup.C21_cleanup_prefix id limit toPop next s.q l inv.repr s.ck.reg r hc
    refine ⟨r.popped, h1, h9.trans inv.size, inv.prev,
      (List.drop_suffix _ l).trans inv.suf, ?_⟩
    intro k a b ha hb hne
    rw [List.getElem?_drop] at ha hb
    obtain ⟨iv, g1, g2⟩ := inv.flag (r.popped + k) a b ha (by rw [← hb]; congr 1) hne
    refine ⟨iv, ?_, g2⟩
    rcases Nat.lt_or_ge limit l.length with hl | hl
    · obtain ⟨f, hf1, hf2⟩ := h7 hl
      show _ ∈ r.reg
      rw [hf2, removeErrorsUntil, List.mem_filter]
      refine ⟨g1, ?_⟩
      have hsort : l.Pairwise (· < ·) := by
        obtain ⟨u, hu⟩ := inv.suf
        rw [← hu] at hi
        exact (List.pairwise_append.1 hi.1).2.1
      have : f < b := pairwise_get hsort (by omega) hf1 hb
      simp only [id, decide_eq_true_eq]; omega
    · show _ ∈ r.reg
      rw [(h4 hl).2]; exact g1

theorem clean_repr {s s' : St} {l : List Nat} {limit toPop next : Nat}
    (hr : Repr s.q l) (he : clean limit toPop next s = .ok s') :
    (∃ k, Repr s'.q (l.drop k)) ∧ s'.q.overflow = s.q.overflow ∧ s'.q.size = s.q.size := by
  cases hc : Cleanup.cleanup id limit toPop next s.q s.ck.reg with
  | ub w => simp [clean, hc] at he
  | throws w => simp [clean, hc] at he
  | ok r =>
    simp only [clean, hc, Outcome.bind_ok] at he
    injection he with he; subst he
    obtain ⟨h1, -, -, -, -, -, -, h8, h9⟩ :=
      Cleanup.C21_cleanup_prefix id limit toPop next s.q l hr s.ck.reg r hc
    exact ⟨⟨_, h1⟩, h8, h9⟩

theorem inv_reach (step n : Nat) (hn : 2 ≤ n) (hst : step < 18446744073709551616) {s : St}
    {ts : List Nat} (h : Reach step n s ts) (hi : Increasing64 ts) (ho : s.q.overflow = 0) :
    ∃ l, Inv step n s ts l := by
  induction h with
  | start r0 =>
    exact ⟨[], repr_init n hn, rfl, by simp, List.suffix_refl _, by intro k a b ha; simp at ha⟩
  | receive s s' ts t b _ he ih =>
    have hi' : Increasing64 ts := ⟨(List.pairwise_append.1 hi.1).1, fun x hx => hi.2 x (by simp [hx])⟩
    have hmono := overflow_mono he
    obtain ⟨l, inv⟩ := ih hi' (by omega)
    exact ⟨_, inv_receive hst inv hi he (by omega)⟩
  | clean s s' ts limit toPop next hprev he ih =>
    obtain ⟨l0, hl0, -⟩ := repr_reach step n hn hprev
    have hov := (clean_repr hl0 he).2.1
    obtain ⟨l, inv⟩ := ih hi (by omega)
    obtain ⟨k, inv'⟩ := inv_clean inv hi he
    exact ⟨_, inv'⟩

/-- A payload in step with its predecessor (helper for the concrete executions). -/
theorem receive_in_step {step : Nat} {s : St} {t : Nat} {r : Ring.Ring Nat × Bool}
    (h1 : s.ck.prev + step = t) (h2 : t < 18446744073709551616) (hw : s.q.write t = .ok r) :
    receive step s t = .ok (⟨⟨t, s.ck.errors, t, s.ck.reg⟩, r.1⟩, r.2) := by
  have : u64 (t + 18446744073709551616 - s.ck.prev) = step := by unfold u64; omega
  simp [receive, check, this, hw]

/-- A payload out of step with its predecessor (helper for the concrete executions). -/
theorem receive_out_of_step {step : Nat} {s : St} {t : Nat} {r : Ring.Ring Nat × Bool}
    (h1 : s.ck.prev + step ≠ t) (h2 : t < 18446744073709551616)
    (h3 : s.ck.prev + step < 18446744073709551616) (hw : s.q.write t = .ok r) :
    receive step s t = .ok (⟨⟨t, s.ck.errors + 1, t,
      addError s.ck.reg "MISSING_FRAMES" ⟨s.ck.prev + step, t⟩⟩, r.1⟩, r.2) := by
  have : u64 (t + 18446744073709551616 - s.ck.prev) ≠ step := by unfold u64; omega
  have e : u64 (s.ck.prev + step) = s.ck.prev + step := Nat.mod_eq_of_lt h3
  simp [receive, check, this, hw, e]

/-- **C24 (partial)** For every run whose received timestamps increase and in which no payload was
rejected by the buffer (any number of cleanups, any registry left over from earlier runs): if
the missing-frames error is not registered, the stored payloads are gap-free. Missing: rejected
payloads and timestamps jumping backwards, where the claim is false. -/
theorem C24_unflagged_gapfree_partial (step n : Nat) (hn : 2 ≤ n) (hst : step < 18446744073709551616)
    (s : St) (ts : List Nat) (h : Reach step n s ts) (hi : Increasing64 ts)
    (ho : s.q.overflow = 0) (hne : hasErrorNamed s.ck.reg "MISSING_FRAMES" = false) :
    ∃ l, Repr s.q l ∧ l <:+ ts ∧ GapFree id step l := by
  obtain ⟨l, inv⟩ := inv_reach step n hn hst h hi ho
  refine ⟨l, inv.repr, inv.suf, ?_⟩
  intro k a b ha hb
  apply Classical.byContradiction
  intro hc
  obtain ⟨iv, h1, -⟩ := inv.flag k a b ha hb hc
  have : hasErrorNamed s.ck.reg "MISSING_FRAMES" = true := by
    simp only [hasErrorNamed, List.any_eq_true, decide_eq_true_eq]
    exact ⟨_, h1, rfl⟩
  rw [this] at hne; cases hne

example : ∃ s, Reach 300 4 s [300, 600] ∧ Increasing64 [300, 600] ∧ s.q.overflow = 0 ∧
    hasErrorNamed s.ck.reg "MISSING_FRAMES" = false := by
  have r0 : Reach 300 4 _ [] := .start []
  have r1 := Reach.receive _ _ _ 300 _ r0 (receive_in_step rfl (by decide) rfl)
  have r2 := Reach.receive _ _ _ 600 _ r1 (receive_in_step rfl (by decide) rfl)
  exact ⟨_, r2, ⟨by simp, by simp⟩, rfl, rfl⟩

/-- **C24 (lookup, partial)** Under the same conditions, the lookup a data request performs (with the
error flag read from the registry) finds only a stored payload covering the requested time. -/
theorem C24_lookup_exact_partial (tick nf n : Nat) (hn : 2 ≤ n) (ht : 0 < tick) (hnf : 0 < nf)
    (hsz : n < 2147483648) (hst : tick * nf < 18446744073709551616)
    (s : St) (ts : List Nat) (h : Reach (tick * nf) n s ts) (hi : Increasing64 ts)
    (ho : s.q.overflow = 0) (l : List Nat) (hl : Repr s.q l) (a : Nat) (h0 : l[0]? = some a)
    (hov : a + l.length * tick * nf < 18446744073709551616) (t i : Nat)
    (hlook : fixedRateLowerBound s.q id tick nf t (hasErrorNamed s.ck.reg "MISSING_FRAMES") l.length =
      .ok (some i)) (hgood : s.q.good i = true) :
    ∃ k, i = slotIdx s.q.size s.q.rd k ∧ Covers id l t k := by
  obtain ⟨l', inv⟩ := inv_reach (tick * nf) n hn hst h hi ho
  have := repr_unique inv.repr hl
  subst this
  have hpw : l'.Pairwise (· < ·) := by
    obtain ⟨u, hu⟩ := inv.suf
    rw [← hu] at hi
    exact (List.pairwise_append.1 hi.1).2.1
  refine C09_lookup_sound_partial id s.q l' hl tick nf ht hnf (by rw [inv.size]; exact hsz) ?_ _ ?_
    a h0 hov t i hlook hgood
  · intro i j x y hij hx hy
    rcases Nat.lt_or_ge i j with h' | h'
    · exact Nat.le_of_lt (pairwise_get hpw h' hx hy)
    · have : i = j := by omega
      subst this; rw [hx] at hy; injection hy with e; simp [e]
  · intro hne
    obtain ⟨l2, r2, -, g2⟩ := C24_unflagged_gapfree_partial (tick * nf) n hn hst s ts h hi ho hne
    rw [repr_unique hl r2]; exact g2

/-- Non-vacuity for the partial theorems: gap-free run 300, 600, 900 with a cleanup, no flag. -/
example : ∃ s, Reach 300 4 s [300, 600, 900] ∧ Increasing64 [300, 600, 900] ∧ s.q.overflow = 0 ∧
    hasErrorNamed s.ck.reg "MISSING_FRAMES" = false := by
  have r0 : Reach 300 4 _ [] := .start []
  have r1 := Reach.receive _ _ _ 300 _ r0 (receive_in_step rfl (by decide) rfl)
  have r2 := Reach.receive _ _ _ 600 _ r1 (receive_in_step rfl (by decide) rfl)
  have r3 := Reach.receive _ _ _ 900 _ r2 (receive_in_step rfl (by decide) rfl)
  have r4 := Reach.clean _ _ _ 2 1 1000 r3 rfl
  exact ⟨_, r4, ⟨by simp, by simp⟩, rfl, rfl⟩

/-- **C24 is false of the code (1)**: a payload rejected by a full buffer leaves a gap that is not
flagged (the timestamp check saw it, so its successor looks continuous). Timestamps increase and
there is no gap in the received data. -/
theorem C24_rejected_write_counterexample :
    ∃ s, Reach 300 4 s [300, 600, 900, 1200, 1500] ∧ Increasing64 [300, 600, 900, 1200, 1500] ∧
      hasErrorNamed s.ck.reg "MISSING_FRAMES" = false ∧
      s.q.visit 4 s.q.begin = .ok ([600, 900, 1500], endIdx) ∧ ¬ GapFree id 300 [600, 900, 1500] := by
  -- the buffer takes 300, 600, 900, rejects 1200, a cleanup frees one slot, 1500 is stored
  have r0 : Reach 300 4 _ [] := .start []
  have r1 := Reach.receive _ _ _ 300 _ r0 (receive_in_step rfl (by decide) rfl)
  have r2 := Reach.receive _ _ _ 600 _ r1 (receive_in_step rfl (by decide) rfl)
  have r3 := Reach.receive _ _ _ 900 _ r2 (receive_in_step rfl (by decide) rfl)
  have r4 := Reach.receive _ _ _ 1200 _ r3 (receive_in_step rfl (by decide) rfl)
  have r5 := Reach.clean _ _ _ 2 1 18446744073709551615 r4 rfl
  have r6 := Reach.receive _ _ _ 1500 _ r5 (receive_in_step rfl (by decide) rfl)
  refine ⟨_, r6, ⟨by simp, by simp⟩, rfl, rfl, ?_⟩
  intro hg
  have := hg 1 900 1500 rfl rfl
  simp at this

/-- **C24 is false of the code (2)**: when timestamps jump backwards, the registered interval ends at
the smaller timestamp and the next cleanup expires it although the jump is still stored. -/
theorem C24_backward_jump_counterexample :
    ∃ s, Reach 300 4 s [900, 1200, 300] ∧ s.q.overflow = 0 ∧
      hasErrorNamed s.ck.reg "MISSING_FRAMES" = false ∧
      s.q.visit 4 s.q.begin = .ok ([1200, 300], endIdx) := by
  have r0 : Reach 300 4 _ [] := .start []
  have r1 := Reach.receive _ _ _ 900 _ r0 (receive_out_of_step (by decide) (by decide) (by decide) rfl)
  have r2 := Reach.receive _ _ _ 1200 _ r1 (receive_in_step rfl (by decide) rfl)
  have r3 := Reach.receive _ _ _ 300 _ r2 (receive_out_of_step (by decide) (by decide) (by decide) rfl)
  have r4 := Reach.clean _ _ _ 2 1 18446744073709551615 r3 rfl
  exact ⟨_, r4, rfl, rfl, rfl⟩

end Verif.Pipeline
