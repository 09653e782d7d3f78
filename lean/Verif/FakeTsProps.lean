import Verif.FakeTsModel
import Verif.SessionProps
import Verif.PdsLinkProps
/-
C108: links in emulator mode.
-/
namespace Verif.FakeTs
open Verif.Session Verif.Registry
open Verif.Search (u64)

/-- `m` timestamps `a + step`, `a + 2 step`, … modulo 2^64. -/
def ticks (a step m : Nat) : List Nat := (List.range m).map (fun k => (a + (k + 1) * step) % 18446744073709551616)

theorem ticks_succ (a step m : Nat) :
    ticks a step (m + 1) = ticks a step m ++ [(a + (m + 1) * step) % 18446744073709551616] := by
  simp [ticks, List.range_succ]

theorem ticks_length (a step m : Nat) : (ticks a step m).length = m := by simp [ticks]

theorem cleanup_reg {limit toPop next : Nat} {q : Ring.Ring Nat} {r : Cleanup.Result Nat} {reg : Reg}
    (h : Cleanup.cleanup id limit toPop next q reg = .ok r) (hr : reg = []) : r.reg = [] := by
  subst hr
  unfold Cleanup.cleanup at h
  split at h
  · cases h1 : Cleanup.popLoop id next toPop q with
    | ok a =>
      simp only [h1, Outcome.bind_ok] at h
      cases h2 : Cleanup.frontTs id a.1 with
      | ok t => simp only [h2, Outcome.bind_ok] at h; injection h with h; rw [← h]; rfl
      | ub w => simp [h2] at h
      | throws e => simp [h2] at h
    | ub w => simp [h1] at h
    | throws e => simp [h1] at h
  · injection h with h; rw [← h]

/-- Everything but an arrival leaves the check alone, apart from a start that resets it. -/
theorem other_ck {c : Cfg} {s s' : St} (st : Session.Step c s s') (hl : s'.log = s.log) (hreg : s.p.ck.reg = []) :
    s'.p.ck.reg = [] ∧
    ((s'.run = s.run ∧ s'.p.ck.prev = s.p.ck.prev ∧ s'.p.ck.errors = s.p.ck.errors) ∨
      (s'.run = s.run + 1 ∧ s'.p.ck.prev = (if c.resets then 0 else s.p.ck.prev) ∧
        s'.p.ck.errors = (if c.resets then 0 else s.p.ck.errors))) := by
  cases st with
  | start hp =>
    refine ⟨?_, Or.inr ⟨rfl, ?_, ?_⟩⟩ <;> simp only [startCmd] <;> cases c.resets <;> simp [hreg]
  | receive _ t hp he =>
    exfalso
    unfold Session.receive at he
    cases hr : Pipeline.receive (c.tick * c.nf) s.p t with
    | ok r =>
      simp only [hr, Outcome.bind_ok] at he
      injection he with he
      rw [← he] at hl
      simp at hl
    | ub w => simp [hr] at he
    | throws e => simp [hr] at he
  | clean _ limit toPop next hp he =>
    unfold Session.clean Pipeline.clean at he
    cases hr : Cleanup.cleanup id limit toPop next s.p.q s.p.ck.reg with
    | ok r =>
      simp only [hr, Outcome.bind_ok] at he
      injection he with he
      rw [← he]
      refine ⟨?_, Or.inl ⟨rfl, rfl, rfl⟩⟩
      show r.reg = []
      exact cleanup_reg hr hreg
    | ub w => simp [hr] at he
    | throws e => simp [hr] at he
  | finish _ hp he =>
    unfold Session.finish at he
    cases hr : s.p.q.flush with
    | ok q =>
      simp only [hr, Outcome.bind_ok] at he
      injection he with he
      rw [← he]
      exact ⟨hreg, Or.inl ⟨rfl, rfl, rfl⟩⟩
    | ub w => simp [hr] at he
    | throws e => simp [hr] at he
  | _ => exact ⟨hreg, Or.inl ⟨rfl, rfl, rfl⟩⟩

/-! ### WIB and WIB2 links -/

/-- The new first timestamp of a payload. -/
theorem rewrite_head {c : Cfg} {prev : Nat} {orig : List Nat} (hn : orig.length = c.nf) (hnf : 0 < c.nf) :
    (rewrite c prev orig).headD 0 = (prev + c.tick * c.nf) % 18446744073709551616 := by
  unfold rewrite
  cases horig : orig.length with
  | zero => omega
  | succ m => rfl

theorem receive_eq {c : Cfg} {s s' : St} {orig : List Nat} (hn : orig.length = c.nf) (hnf : 0 < c.nf)
    (hstep : c.tick * c.nf < 18446744073709551616) (hprev : s.p.ck.prev < 18446744073709551616)
    (he : receive c s orig = .ok s') :
    ∃ t q b, t = (s.p.ck.prev + c.tick * c.nf) % 18446744073709551616 ∧
      s' = { s with p := ⟨⟨t, s.p.ck.errors, t, s.p.ck.reg⟩, q⟩, log := s.log ++ [⟨s.run, t, b⟩] } := by
  unfold receive at he
  rw [rewrite_head hn hnf] at he
  generalize ht : (s.p.ck.prev + c.tick * c.nf) % 18446744073709551616 = t at he
  have hck : TsCheck.check (c.tick * c.nf) s.p.ck t = ⟨t, s.p.ck.errors, t, s.p.ck.reg⟩ := by
    have : u64 (t + 18446744073709551616 - s.p.ck.prev) = c.tick * c.nf := by
      unfold u64
      generalize c.tick * c.nf = st at *
      omega
    simp [TsCheck.check, this]
  unfold Session.receive Pipeline.receive at he
  rw [hck] at he
  cases hw : s.p.q.write t with
  | ok r =>
    simp only [hw, Outcome.bind_ok] at he
    injection he with he
    exact ⟨t, r.1, r.2, rfl, he.symm⟩
  | ub w => simp [hw] at he
  | throws e => simp [hw] at he

/-- What holds of a WIB (`resets`) or WIB2 link in emulator mode. -/
structure Inv (c : Cfg) (n : Nat) (s : St) : Prop where
  reach : Session.Reach c n s
  reg : s.p.ck.reg = []
  errors : s.p.ck.errors = 0
  fresh : ∀ a ∈ s.log, a.run ≤ s.run
  prevR : c.resets = true → s.p.ck.prev = ((runLog s.log s.run).length * (c.tick * c.nf)) % 18446744073709551616
  prevN : c.resets = false → s.p.ck.prev = (s.log.length * (c.tick * c.nf)) % 18446744073709551616
  tsR : c.resets = true → ∀ r, runLog s.log r = ticks 0 (c.tick * c.nf) (runLog s.log r).length
  tsN : c.resets = false → s.log.map (·.ts) = ticks 0 (c.tick * c.nf) s.log.length

theorem runLog_fresh {log : List Arrival} {r : Nat} (h : ∀ a ∈ log, a.run ≤ r) : runLog log (r + 1) = [] := by
  simp only [runLog, List.map_eq_nil_iff, List.filter_eq_nil_iff, decide_eq_true_eq]
  intro a ha hr
  have := h a ha
  omega

theorem inv_reach {c : Cfg} {n : Nat} (hc : Link c n) {s : St} (h : Reach c n s) : Inv c n s := by
  induction h with
  | init =>
    exact ⟨.init, rfl, rfl, by simp [St.init], fun _ => (by simp [St.init, runLog]), fun _ => (by simp [St.init]),
      fun _ r => (by simp [St.init, runLog, ticks]), fun _ => (by simp [St.init, ticks])⟩
  | step s s' _ st ih =>
    cases st with
    | other st hl =>
      obtain ⟨h1, h2⟩ := other_ck st hl ih.reg
      rcases h2 with ⟨h3, h4, h5⟩ | ⟨h3, h4, h5⟩
      · refine ⟨.step _ _ ih.reach st, h1, h5.trans ih.errors, ?_, ?_, ?_, ?_, ?_⟩
        · rw [hl, h3]; exact ih.fresh
        · rw [hl, h3, h4]; exact ih.prevR
        · rw [hl, h4]; exact ih.prevN
        · rw [hl]; exact ih.tsR
        · rw [hl]; exact ih.tsN
      · refine ⟨.step _ _ ih.reach st, h1, ?_, ?_, ?_, ?_, ?_, ?_⟩
        · rw [h5, ih.errors]; simp
        · rw [hl, h3]; intro a ha; have := ih.fresh a ha; omega
        · intro hr
          rw [hl, h3, h4, runLog_fresh ih.fresh]
          simp [hr]
        · intro hr
          rw [hl, h4]
          simpa [hr] using ih.prevN hr
        · rw [hl]; exact ih.tsR
        · rw [hl]; exact ih.tsN
    | receive orig hn hp he =>
      have hprev : s.p.ck.prev < 18446744073709551616 := by
        cases hr : c.resets with
        | true => rw [ih.prevR hr]; exact Nat.mod_lt _ (by decide)
        | false => rw [ih.prevN hr]; exact Nat.mod_lt _ (by decide)
      have hreach : Session.Reach c n s' := .step _ _ ih.reach (.receive _ _ _ hp he)
      obtain ⟨t, q, b, ht, rfl⟩ := receive_eq hn hc.nf hc.step hprev he
      refine ⟨hreach, ih.reg, ih.errors, ?_, ?_, ?_, ?_, ?_⟩
      · intro a ha
        rcases List.mem_append.1 ha with ha | ha
        · exact ih.fresh a ha
        · rw [List.mem_singleton] at ha; subst ha; exact Nat.le_refl _
      · intro hr
        show t = _
        rw [ht, ih.prevR hr, runLog_append]
        simp only [if_true, List.length_append, List.length_singleton, Nat.succ_mul]
        rw [Nat.mod_add_mod]
      · intro hr
        show t = _
        rw [ht, ih.prevN hr]
        simp only [List.length_append, List.length_singleton, Nat.succ_mul]
        rw [Nat.mod_add_mod]
      · intro hr r
        show runLog (s.log ++ _) r = _
        rw [runLog_append]
        by_cases hrun : s.run = r
        · subst hrun
          simp only [if_true, List.length_append, List.length_singleton]
          rw [ticks_succ, ← ih.tsR hr s.run, ht, ih.prevR hr, Nat.mod_add_mod, Nat.succ_mul, Nat.zero_add]
        · simpa [hrun] using ih.tsR hr r
      · intro hr
        show (s.log ++ _).map _ = _
        simp only [List.map_append, List.map_cons, List.map_nil, List.length_append, List.length_singleton]
        rw [ticks_succ, ← ih.tsN hr, ht, ih.prevN hr, Nat.mod_add_mod, Nat.succ_mul, Nat.zero_add]

/-- **C108 (frames)** The timestamps written into a payload with `nf` frames: one every `tick` from the first on,
whatever they were. -/
theorem C108_frames (c : Cfg) (prev : Nat) (orig : List Nat)
    (hw : prev + 2 * (c.tick * orig.length) < 18446744073709551616) (hn : orig.length = c.nf) :
    rewrite c prev orig = (List.range c.nf).map (fun i => prev + c.tick * c.nf + i * c.tick) := by
  unfold rewrite
  rw [hn] at hw ⊢
  rw [TsCheck.emuLoop_spec _ _ _ (TsCheck.u64_lt _)]
  apply List.map_congr_left
  intro i hi
  have hi := List.mem_range.1 hi
  have h1 : c.tick * i ≤ c.tick * c.nf := Nat.mul_le_mul_left _ (Nat.le_of_lt hi)
  have h2 : u64 (prev + c.tick * c.nf) = prev + c.tick * c.nf := by
    unfold u64
    exact Nat.mod_eq_of_lt (by omega)
  rw [h2, Nat.mul_comm i]
  exact Nat.mod_eq_of_lt (by omega)

example : rewrite wib 300 (List.replicate 12 77) =
    [600, 625, 650, 675, 700, 725, 750, 775, 800, 825, 850, 875] := by decide +kernel

/-- **C108 (WIB timestamps)** Whatever arrives: in every run the k-th payload of a WIB link in emulator mode carries k
times the duration of a payload (modulo 2^64), from the beginning of the run. -/
theorem C108_wib_timestamps (c : Cfg) (n : Nat) (hc : Link c n) (hr : c.resets = true) (s : St) (h : Reach c n s)
    (r k : Nat) (hk : k < (runLog s.log r).length) :
    (runLog s.log r)[k]? = some (((k + 1) * (c.tick * c.nf)) % 18446744073709551616) := by
  rw [(inv_reach hc h).tsR hr r]
  simp [ticks, hk]

/-- **C108 (WIB2 timestamps, partial)** Of a WIB2 link the k-th payload since it was created carries k times the duration;
the full statement, from the beginning of every run, is false: `C108_second_run_counterexample`. -/
theorem C108_wib2_timestamps_partial (c : Cfg) (n : Nat) (hc : Link c n) (hr : c.resets = false) (s : St) (h : Reach c n s)
    (k : Nat) (hk : k < s.log.length) :
    (s.log.map (·.ts))[k]? = some (((k + 1) * (c.tick * c.nf)) % 18446744073709551616) := by
  rw [(inv_reach hc h).tsN hr]
  simp [ticks, hk]

/-- **C108 (no errors)** In emulator mode a link never counts or registers missing frames. -/
theorem C108_no_errors (c : Cfg) (n : Nat) (hc : Link c n) (s : St) (h : Reach c n s) :
    s.p.ck.errors = 0 ∧ hasErrorNamed s.p.ck.reg "MISSING_FRAMES" = false := by
  have inv := inv_reach hc h
  exact ⟨inv.errors, by rw [inv.reg]; rfl⟩

theorem ticks_steady {step m : Nat} (hw : (m + 1) * step < 18446744073709551616) : Steady step (ticks 0 step m) := by
  have e : ticks 0 step m = (List.range m).map (fun k => (k + 1) * step) := by
    apply List.map_congr_left
    intro k hk
    have hk := List.mem_range.1 hk
    have := Nat.mul_le_mul_right step (show k + 1 ≤ m + 1 by omega)
    rw [Nat.zero_add]
    exact Nat.mod_eq_of_lt (by omega)
  rw [e]
  constructor
  · rw [List.pairwise_map]
    refine List.pairwise_lt_range.imp ?_
    intro a b hab
    have := Nat.mul_le_mul_right step (show a + 1 + 1 ≤ b + 1 by omega)
    rw [Nat.succ_mul (a + 1)] at this
    exact this
  · intro t ht
    obtain ⟨k, hk, rfl⟩ := List.mem_map.1 ht
    have hk := List.mem_range.1 hk
    have := Nat.mul_le_mul_right step (show k + 1 + 1 ≤ m + 1 by omega)
    rw [Nat.succ_mul (k + 1)] at this
    omega

theorem runLog_sublist (log : List Arrival) (r : Nat) : (runLog log r).Sublist (log.map (·.ts)) :=
  List.filter_sublist.map _

theorem steady_sublist {step : Nat} {l m : List Nat} (h : Steady step m) (hs : l.Sublist m) : Steady step l :=
  ⟨h.1.sublist hs, fun t ht => h.2 t (hs.subset ht)⟩

/-- **C108 (fragments)** In emulator mode the data of a run are gap-free and go forward, so a fragment without
error bit is exact with respect to the run, unless the buffer refused a payload (see
`C108_refused_payload_counterexample`). -/
theorem C108_exact_partial (c : Cfg) (n : Nat) (hc : Link c n) (s : St) (h : Reach c n s) (e : Sent) (he : e ∈ s.sent)
    (hst : AllStored s.log e.run)
    (hw : (s.log.length + 1) * (c.tick * c.nf) < 18446744073709551616) (hok : e.frag.header.dataNotFound = false) :
    ∀ f, f ∈ e.frag.frames ↔
      InWindow c.tick c.nf (runLog s.log e.run) e.req.dr.wBegin e.req.dr.wEnd f := by
  have inv := inv_reach hc h
  have hlen : (runLog s.log e.run).length ≤ s.log.length := by
    have := (runLog_sublist s.log e.run).length_le
    simpa using this
  have hsteady : Steady (c.tick * c.nf) (runLog s.log e.run) := by
    cases hr : c.resets with
    | true =>
      rw [inv.tsR hr e.run]
      apply ticks_steady
      have := Nat.mul_le_mul_right (c.tick * c.nf) (Nat.succ_le_succ hlen)
      exact Nat.lt_of_le_of_lt this hw
    | false =>
      refine steady_sublist ?_ (runLog_sublist s.log e.run)
      rw [inv.tsN hr]
      exact ticks_steady hw
  exact (C70_fragment_exact_partial c n hc s inv.reach e he hst hsteady hok).1

/-! ### DAPHNE links -/

/-- What holds of a DAPHNE link in emulator mode. -/
structure InvD (c : Cfg) (n : Nat) (x : D) : Prop where
  reach : PdsLink.Reach c n x.s
  reg : x.s.p.ck.reg = []
  first : x.first = true ↔ x.s.log = []
  zero : x.s.log = [] → x.s.p.ck.prev = 0
  prev : x.s.log ≠ [] → x.s.p.ck.prev = ((x.s.log.length - 1) * (c.tick * c.nf)) % 18446744073709551616
  ts : x.s.log.map (·.ts)
    = (List.range x.s.log.length).map (fun k => (k * (c.tick * c.nf)) % 18446744073709551616)

theorem invD_reach {c : Cfg} {n : Nat} (hr : c.resets = false) (hnf : 0 < c.nf) {x : D} (h : ReachD c n x) :
    InvD c n x := by
  induction h with
  | init => exact ⟨.init, rfl, by simp [St.init], fun _ => rfl, by simp [St.init], by simp [St.init]⟩
  | step x x' _ st ih =>
    cases st with
    | other s' st hl =>
      obtain ⟨h1, h2⟩ := other_ck st hl ih.reg
      have hprev : s'.p.ck.prev = x.s.p.ck.prev := by
        rcases h2 with ⟨-, h4, -⟩ | ⟨-, h4, -⟩
        · exact h4
        · simpa [hr] using h4
      refine ⟨.step _ _ ih.reach (.other _ _ st hl), h1, ?_, ?_, ?_, ?_⟩
      · show x.first = true ↔ s'.log = []
        rw [hl]; exact ih.first
      · show s'.log = [] → s'.p.ck.prev = 0
        rw [hl, hprev]; exact ih.zero
      · show s'.log ≠ [] → s'.p.ck.prev = _
        rw [hl, hprev]; exact ih.prev
      · show s'.log.map _ = _
        rw [hl]; exact ih.ts
    | receive _ orig hn hp he =>
      unfold receiveD at he
      have hhead : (rewriteD c x.s.p.ck.prev x.first orig).headD 0
          = (x.s.log.length * (c.tick * c.nf)) % 18446744073709551616 := by
        unfold rewriteD
        cases horig : orig.length with
        | zero => omega
        | succ m =>
          show (if x.first = true then _ else _) = _
          by_cases hf : x.first = true
          · rw [if_pos hf, ih.zero (ih.first.1 hf), ih.first.1 hf]; simp
          · have hne : x.s.log ≠ [] := fun h => hf (ih.first.2 h)
            rw [if_neg hf, ih.prev hne]
            have hl : 0 < x.s.log.length := List.length_pos_iff.2 hne
            obtain ⟨k, hk⟩ : ∃ k, x.s.log.length = k + 1 := ⟨x.s.log.length - 1, by omega⟩
            rw [hk]
            simp only [Nat.add_sub_cancel, Nat.succ_mul]
            unfold u64
            rw [Nat.mod_add_mod]
      rw [hhead] at he
      cases hw : PdsLink.receive x.s ((x.s.log.length * (c.tick * c.nf)) % 18446744073709551616) with
      | ub w => simp [hw] at he
      | throws e => simp [hw] at he
      | ok s' =>
        simp only [hw, Outcome.bind_ok] at he
        injection he with he
        subst he
        have hreach : PdsLink.Reach c n s' := .step _ _ ih.reach (.receive _ _ _ hp hw)
        unfold PdsLink.receive at hw
        generalize ht : (x.s.log.length * (c.tick * c.nf)) % 18446744073709551616 = t at hw
        cases hwr : x.s.p.q.write t with
        | ub w => simp [hwr] at hw
        | throws e => simp [hwr] at hw
        | ok r =>
          simp only [hwr, Outcome.bind_ok] at hw
          injection hw with hw
          subst hw
          refine ⟨hreach, ih.reg, by simp, by simp, fun _ => ?_, ?_⟩
          · show t = _
            simp [← ht]
          · simp only [List.map_append, List.map_cons, List.map_nil, List.length_append, List.length_singleton,
              List.range_succ]
            rw [ih.ts, ht]

/-- **C108 (DAPHNE timestamps, partial)** Of a DAPHNE link in emulator mode the k-th payload since it was created carries k
times the duration of a payload, the first one zero; again not from the beginning of every run. -/
theorem C108_daphne_timestamps_partial (c : Cfg) (n : Nat) (hr : c.resets = false) (hnf : 0 < c.nf) (x : D)
    (h : ReachD c n x) (k : Nat) (hk : k < x.s.log.length) :
    (x.s.log.map (·.ts))[k]? = some ((k * (c.tick * c.nf)) % 18446744073709551616) := by
  rw [(invD_reach hr hnf h).ts]
  simp [hk]

/-- **C108 (DAPHNE frames)** The timestamps written into a DAPHNE payload: one every `tick` from the first on. -/
theorem C108_daphne_frames (c : Cfg) (prev : Nat) (first : Bool) (orig : List Nat) (hn : orig.length = c.nf)
    (hw : prev + 2 * (c.tick * orig.length) < 18446744073709551616) :
    rewriteD c prev first orig
      = (List.range c.nf).map (fun i => (if first then prev else prev + c.tick * c.nf) + i * c.tick) := by
  unfold rewriteD
  rw [hn] at hw ⊢
  have h2 : (if first then prev else u64 (prev + c.tick * c.nf)) = (if first then prev else prev + c.tick * c.nf) := by
    unfold u64
    rw [Nat.mod_eq_of_lt (by omega)]
  have h3 : (if first then prev else prev + c.tick * c.nf) ≤ prev + c.tick * c.nf := by split <;> omega
  rw [h2, TsCheck.emuLoop_spec _ _ _ (by omega)]
  apply List.map_congr_left
  intro i hi
  have hi := List.mem_range.1 hi
  have h1 : c.tick * i ≤ c.tick * c.nf := Nat.mul_le_mul_left _ (Nat.le_of_lt hi)
  rw [Nat.mul_comm i]
  exact Nat.mod_eq_of_lt (by omega)

example : rewriteD PdsLink.daphne 192 false (List.replicate 12 77) =
    [384, 400, 416, 432, 448, 464, 480, 496, 512, 528, 544, 560] := by decide +kernel

/-- **C108 (DAPHNE fragments)** A fragment without error bit of a DAPHNE link in emulator mode carries exactly the
frames of its window among the payloads stored in its run, refused payloads or not. -/
theorem C108_daphne_exact (c : Cfg) (n : Nat) (hr : c.resets = false) (hc : PdsLink.Kind c n) (x : D) (h : ReachD c n x)
    (e : Sent) (he : e ∈ x.s.sent) (hw : x.s.log.length * (c.tick * c.nf) < 18446744073709551616)
    (hok : e.frag.header.dataNotFound = false) :
    ∀ f, f ∈ e.frag.frames ↔
      InWindow c.tick c.nf (PdsLink.storedLog x.s.log e.run) e.req.dr.wBegin e.req.dr.wEnd f := by
  have inv := invD_reach hr hc.nf h
  refine (PdsLink.C93_fragment_exact c n hc x.s inv.reach e he ?_ hok).1
  have hsub : (PdsLink.storedLog x.s.log e.run).Sublist (x.s.log.map (·.ts)) := List.filter_sublist.map _
  refine List.Pairwise.sublist hsub ?_
  rw [inv.ts, List.pairwise_map]
  have : (List.range x.s.log.length).Pairwise (fun a b => a < b ∧ b < x.s.log.length) := by
    rw [List.pairwise_iff_forall_sublist]
    intro a b hab
    have h1 := List.pairwise_iff_forall_sublist.1 List.pairwise_lt_range hab
    exact ⟨h1, List.mem_range.1 (hab.subset (by simp))⟩
  refine this.imp ?_
  intro a b ⟨hab, hb⟩
  have h1 := Nat.mul_le_mul_right (c.tick * c.nf) (show a + 1 ≤ b by omega)
  have h2 := Nat.mul_le_mul_right (c.tick * c.nf) (show b ≤ x.s.log.length by omega)
  rw [Nat.succ_mul] at h1
  rw [Nat.mod_eq_of_lt (by omega), Nat.mod_eq_of_lt (by omega)]
  have h3 : (c.nf - 1) * c.tick < c.tick * c.nf := by
    rw [Nat.mul_comm c.tick]
    exact Nat.mul_lt_mul_of_pos_right (by have := hc.nf; omega) hc.tick
  omega

/-! ### Concrete links -/

/-- WIB2: 12 frames, 32 ticks apart; its processor has no `start`. -/
def wib2 : Cfg := ⟨32, 12, .fixed 12, ⟨3, 1, 7⟩, 1, false⟩

/-- A payload with arbitrary timestamps. -/
def junk : List Nat := [5, 5, 5, 5, 5, 5, 5, 5, 5, 5, 5, 5]

theorem frecv {c : Cfg} {s : St} {p : Pipeline.St} {b : Bool} {t : Nat} (hn : junk.length = c.nf)
    (hp : s.phase ≠ .idle) (ht : (rewrite c s.p.ck.prev junk).headD 0 = t)
    (h : Pipeline.receive (c.tick * c.nf) s.p t = .ok (p, b)) :
    Step c s { s with p := p, log := s.log ++ [⟨s.run, t, b⟩] } :=
  .receive s _ junk hn hp (by unfold receive; rw [ht]; exact recv h)

/-- A WIB link: payloads with arbitrary timestamps, a request answered from the made-up ones. -/
theorem wib_demo : ∃ s, Reach wib 6 s ∧ runLog s.log 1 = [300, 600, 900] ∧ (∀ a ∈ s.log, a.stored = true) ∧
    ∃ e ∈ s.sent, e.run = 1 ∧ e.req.dr = ⟨1, 550, 550, 650, 5, 0⟩ ∧ e.frag.header.dataNotFound = false ∧
      e.frag.frames = [(300, 10), (300, 11), (600, 0), (600, 1)] := by
  have r0 : Reach wib 6 _ := .init
  have r1 := Reach.step _ _ r0 (.other _ _ (.start _ rfl) rfl)
  have r2 := Reach.step _ _ r1 (frecv (t := 300) rfl (by simp [startCmd]) rfl (Pipeline.receive_in_step rfl (by decide) rfl))
  have r3 := Reach.step _ _ r2 (frecv (t := 600) rfl (by simp [startCmd]) rfl (Pipeline.receive_in_step rfl (by decide) rfl))
  have r4 := Reach.step _ _ r3 (frecv (t := 900) rfl (by simp [startCmd]) rfl (Pipeline.receive_in_step rfl (by decide) rfl))
  have r5 := Reach.step _ _ r4 (.other _ _ (.issue _ ⟨1, 550, 550, 650, 5, 0⟩ (Or.inl rfl)) rfl)
  have r6 := Reach.step _ _ r5 (.other _ _ (.reply _ ⟨⟨1, 550, 550, 650, 5, 0⟩, 1⟩ _ _ List.mem_cons_self (Or.inl rfl) rfl rfl) rfl)
  exact ⟨_, r6, rfl, by decide, _, List.mem_cons_self, rfl, rfl, rfl, rfl⟩

example : ∃ s, Reach wib 6 s ∧ Link wib 6 ∧ wib.resets = true ∧ AllStored s.log 1 ∧ (runLog s.log 1).length = 3 ∧
    (s.log.length + 1) * (wib.tick * wib.nf) < 18446744073709551616 ∧
    ∃ e ∈ s.sent, e.run = 1 ∧ e.req.dr.wBegin ≤ e.req.dr.wEnd ∧ e.frag.header.dataNotFound = false := by
  have r0 : Reach wib 6 _ := .init
  have r1 := Reach.step _ _ r0 (.other _ _ (.start _ rfl) rfl)
  have r2 := Reach.step _ _ r1 (frecv (t := 300) rfl (by simp [startCmd]) rfl (Pipeline.receive_in_step rfl (by decide) rfl))
  have r3 := Reach.step _ _ r2 (frecv (t := 600) rfl (by simp [startCmd]) rfl (Pipeline.receive_in_step rfl (by decide) rfl))
  have r4 := Reach.step _ _ r3 (frecv (t := 900) rfl (by simp [startCmd]) rfl (Pipeline.receive_in_step rfl (by decide) rfl))
  have r5 := Reach.step _ _ r4 (.other _ _ (.issue _ ⟨1, 550, 550, 650, 5, 0⟩ (Or.inl rfl)) rfl)
  have r6 := Reach.step _ _ r5 (.other _ _ (.reply _ ⟨⟨1, 550, 550, 650, 5, 0⟩, 1⟩ _ _ List.mem_cons_self (Or.inl rfl) rfl rfl) rfl)
  exact ⟨_, r6, ⟨by decide, by decide, by decide, Or.inr rfl, by decide, by decide⟩, rfl, (by unfold AllStored; decide), rfl,
    (by decide), _, List.mem_cons_self, rfl, by decide, rfl⟩

/-- **C108 is false of the code** for WIB2: its processor does not begin anew with a run. Two links in emulator mode,
of which one received one payload and the other two in run 1, give the first payload of run 2 different timestamps, and
neither gives it the timestamp it had in run 1. -/
theorem C108_second_run_counterexample :
    (∃ s, Reach wib2 4 s ∧ runLog s.log 1 = [384] ∧ runLog s.log 2 = [768]) ∧
    (∃ s, Reach wib2 4 s ∧ runLog s.log 1 = [384, 768] ∧ runLog s.log 2 = [1152]) := by
  have r0 : Reach wib2 4 _ := .init
  have r1 := Reach.step _ _ r0 (.other _ _ (.start _ rfl) rfl)
  have r2 := Reach.step _ _ r1 (frecv (t := 384) rfl (by simp [startCmd]) rfl (Pipeline.receive_in_step rfl (by decide) rfl))
  constructor
  · have r4 := Reach.step _ _ r2 (.other _ _ (.stopCall _ rfl) rfl)
    have r5 := Reach.step _ _ r4 (.other _ _ (.waiterExit _ rfl rfl) rfl)
    have r6 := Reach.step _ _ r5 (.other _ _ (.join _ rfl rfl rfl rfl) rfl)
    have r7 := Reach.step _ _ r6 (.other _ _ (.finish _ _ rfl rfl) rfl)
    have r8 := Reach.step _ _ r7 (.other _ _ (.start _ rfl) rfl)
    have r9 := Reach.step _ _ r8 (frecv (t := 768) rfl (by simp [startCmd]) rfl (Pipeline.receive_in_step rfl (by decide) rfl))
    exact ⟨_, r9, rfl, rfl⟩
  · have r3 := Reach.step _ _ r2 (frecv (t := 768) rfl (by simp [startCmd]) rfl (Pipeline.receive_in_step rfl (by decide) rfl))
    have r4 := Reach.step _ _ r3 (.other _ _ (.stopCall _ rfl) rfl)
    have r5 := Reach.step _ _ r4 (.other _ _ (.waiterExit _ rfl rfl) rfl)
    have r6 := Reach.step _ _ r5 (.other _ _ (.join _ rfl rfl rfl rfl) rfl)
    have r7 := Reach.step _ _ r6 (.other _ _ (.finish _ _ rfl rfl) rfl)
    have r8 := Reach.step _ _ r7 (.other _ _ (.start _ rfl) rfl)
    have r9 := Reach.step _ _ r8 (frecv (t := 1152) rfl (by simp [startCmd]) rfl (Pipeline.receive_in_step rfl (by decide) rfl))
    exact ⟨_, r9, rfl, rfl⟩

/-- **C108 is false of the code** when the buffer refuses a payload: its timestamps are used up, nothing is registered
(`C108_no_errors`), and a request for exactly them is answered without error bit and without frames. -/
theorem C108_refused_payload_counterexample :
    ∃ s, Reach wib 4 s ∧ runLog s.log 1 = [300, 600, 900, 1200, 1500, 1800] ∧
      ∃ e ∈ s.sent, e.run = 1 ∧ e.req.dr = ⟨1, 1550, 1500, 1600, 5, 0⟩ ∧ e.frag.header.dataNotFound = false ∧
        e.frag.frames = [] := by
  have r0 : Reach wib 4 _ := .init
  have r1 := Reach.step _ _ r0 (.other _ _ (.start _ rfl) rfl)
  have r2 := Reach.step _ _ r1 (frecv (t := 300) rfl (by simp [startCmd]) rfl (Pipeline.receive_in_step rfl (by decide) rfl))
  have r3 := Reach.step _ _ r2 (frecv (t := 600) rfl (by simp [startCmd]) rfl (Pipeline.receive_in_step rfl (by decide) rfl))
  have r4 := Reach.step _ _ r3 (frecv (t := 900) rfl (by simp [startCmd]) rfl (Pipeline.receive_in_step rfl (by decide) rfl))
  have r5 := Reach.step _ _ r4 (frecv (t := 1200) rfl (by simp [startCmd]) rfl (Pipeline.receive_in_step rfl (by decide) rfl))
  have r6 := Reach.step _ _ r5 (.other _ _ (.clean _ _ 2 2 18446744073709551615 (Or.inl rfl) rfl) rfl)
  have r7 := Reach.step _ _ r6 (frecv (t := 1500) rfl (by simp [startCmd]) rfl (Pipeline.receive_in_step rfl (by decide) rfl))
  have r8 := Reach.step _ _ r7 (frecv (t := 1800) rfl (by simp [startCmd]) rfl (Pipeline.receive_in_step rfl (by decide) rfl))
  have r9 := Reach.step _ _ r8 (.other _ _ (.issue _ ⟨1, 1550, 1500, 1600, 5, 0⟩ (Or.inl rfl)) rfl)
  have r10 := Reach.step _ _ r9 (.other _ _ (.reply _ ⟨⟨1, 1550, 1500, 1600, 5, 0⟩, 1⟩ _ _ (by simp [startCmd, St.init]) (Or.inl rfl) rfl rfl) rfl)
  exact ⟨_, r10, rfl, _, List.mem_cons_self, rfl, rfl, rfl, rfl⟩

theorem drecv {c : Cfg} {x : D} {q : Ring.Ring Nat} {b : Bool} {t : Nat} (hn : junk.length = c.nf)
    (hp : x.s.phase ≠ .idle) (ht : (rewriteD c x.s.p.ck.prev x.first junk).headD 0 = t)
    (h : x.s.p.q.write t = .ok (q, b)) :
    StepD c x ⟨{ x.s with p := ⟨{ x.s.p.ck with prev := t, last := t }, q⟩, log := x.s.log ++ [⟨x.s.run, t, b⟩] }, false⟩ :=
  .receive x _ junk hn hp (by unfold receiveD; rw [ht]; simp [PdsLink.receive, h])

/-- A DAPHNE link in emulator mode: payloads with arbitrary timestamps, a request answered from the made-up ones. -/
theorem daphne_demo : ∃ x, ReachD PdsLink.daphne 6 x ∧ PdsLink.daphne.resets = false ∧ PdsLink.Kind PdsLink.daphne 6 ∧
    x.s.log.map (·.ts) = [0, 192, 384] ∧
    ∃ e ∈ x.s.sent, e.run = 1 ∧ e.req.dr = ⟨1, 190, 170, 220, 5, 0⟩ ∧ e.frag.header.dataNotFound = false ∧
      e.frag.frames = [(0, 11), (192, 0), (192, 1)] := by
  have r0 : ReachD PdsLink.daphne 6 _ := .init
  have r1 := ReachD.step _ _ r0 (.other _ _ (.start _ rfl) rfl)
  have r2 := ReachD.step _ _ r1 (drecv (t := 0) rfl (by simp [startCmd]) rfl rfl)
  have r3 := ReachD.step _ _ r2 (drecv (t := 192) rfl (by simp [startCmd]) rfl rfl)
  have r4 := ReachD.step _ _ r3 (drecv (t := 384) rfl (by simp [startCmd]) rfl rfl)
  have r5 := ReachD.step _ _ r4 (.other _ _ (.issue _ ⟨1, 190, 170, 220, 5, 0⟩ (Or.inl rfl)) rfl)
  have r6 := ReachD.step _ _ r5 (.other _ _ (.reply _ ⟨⟨1, 190, 170, 220, 5, 0⟩, 1⟩ _ _ List.mem_cons_self (Or.inl rfl) rfl rfl) rfl)
  exact ⟨_, r6, rfl, ⟨by decide, by decide, rfl, by decide, by decide⟩, rfl, _, List.mem_cons_self, rfl, rfl, rfl, rfl⟩

end Verif.FakeTs
