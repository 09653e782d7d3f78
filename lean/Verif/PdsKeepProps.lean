import Verif.PdsKeepModel
import Verif.PdsLinkProps
import Verif.RetainProps
import Verif.RetryProps
/- Property C104: photon-detector links keep recent data and answer after at most two evaluations. -/
namespace Verif.PdsKeep
open Verif.Ring Verif.DataReq Verif.Search Verif.Session
open Verif.PdsLink (storedLog storedLog_append Forward Kind)

/-! ### Retention -/

structure Inv (c : Cfg) (n K : Nat) (s : St) (l : List Nat) : Prop where
  reach : PdsLink.Reach c n s
  repr : Repr s.p.q l
  size : s.p.q.size = n
  idle : s.phase = .idle → l = []
  suf : l <:+ storedLog s.log s.run
  keep : s.phase ≠ .idle → K ≤ l.length ∨ l = storedLog s.log s.run
  past : ∀ a ∈ s.log, a.run ≤ s.run

theorem inv_step {rnd : ℚ → ℚ} {h : Conf.Handler} {c : Cfg} {n K : Nat} (hset : Retain.Keeps rnd h K)
    {s s' : St} {l : List Nat} (inv : Inv c n K s l) (st : Step rnd h c s s') : ∃ l', Inv c n K s' l' := by
  cases st with
  | start hp =>
    have hl := inv.idle hp
    subst hl
    have hempty : storedLog s.log (s.run + 1) = [] := by
      simp only [storedLog, List.map_eq_nil_iff, List.filter_eq_nil_iff, decide_eq_true_eq]
      intro a ha
      have := inv.past a ha
      omega
    refine ⟨[], .step _ _ inv.reach (.other _ _ (.start _ hp) rfl), inv.repr, inv.size, fun _ => rfl, List.nil_suffix, ?_, ?_⟩
    · intro _; right; exact hempty.symm
    · intro a ha; have := inv.past a ha; simp only [startCmd]; omega
  | receive _ t hp he =>
    have hreach := PdsLink.Reach.step _ _ inv.reach (.receive _ _ t hp he)
    obtain ⟨p, b, rfl, hsz, hcase⟩ := PdsLink.receive_cases inv.repr he
    have past : ∀ a ∈ s.log ++ [⟨s.run, t, b⟩], a.run ≤ s.run := by
      intro a ha
      rcases List.mem_append.1 ha with ha | ha
      · exact inv.past a ha
      · simp at ha; subst ha; exact Nat.le_refl _
    rcases hcase with ⟨rfl, hrep⟩ | ⟨rfl, hrep⟩
    · have ht : storedLog (s.log ++ [⟨s.run, t, true⟩]) s.run = storedLog s.log s.run ++ [t] := by
        rw [storedLog_append]; simp
      refine ⟨l ++ [t], hreach, hrep, hsz.trans inv.size, fun hi => absurd hi hp, ?_, ?_, past⟩
      · show _ <:+ storedLog (s.log ++ [_]) s.run
        rw [ht]
        obtain ⟨u, hu⟩ := inv.suf
        exact ⟨u, by rw [← hu, List.append_assoc]⟩
      · intro _
        show _ ∨ _ = storedLog (s.log ++ [_]) s.run
        rw [ht]
        rcases inv.keep hp with h1 | h1
        · left; simp; omega
        · right; rw [h1]
    · have ht : storedLog (s.log ++ [⟨s.run, t, false⟩]) s.run = storedLog s.log s.run := by
        rw [storedLog_append]; simp
      refine ⟨l, hreach, hrep, hsz.trans inv.size, fun hi => absurd hi hp, ?_, ?_, past⟩
      · show _ <:+ storedLog (s.log ++ [_]) s.run
        rw [ht]; exact inv.suf
      · intro _
        show _ ∨ _ = storedLog (s.log ++ [_]) s.run
        rw [ht]; exact inv.keep hp
  | clean _ next hp he =>
    have hne : s.phase ≠ .idle := by rcases hp with hp | hp <;> simp [hp]
    cases hc : Cleanup.cleanup id h.limitSize (Cleanup.toPopOf rnd h.sizePct s.p.q.occupancy) next s.p.q
        s.p.ck.reg with
    | ub w => simp [Retain.pass, Session.clean, Pipeline.clean, hc] at he
    | throws w => simp [Retain.pass, Session.clean, Pipeline.clean, hc] at he
    | ok r =>
      have hstep : Session.Step c s s' := .clean _ _ _ _ next hp he
      simp only [Retain.pass, Session.clean, Pipeline.clean, hc, Outcome.bind_ok] at he
      injection he with he; subst he
      have hreach := PdsLink.Reach.step _ _ inv.reach (.other _ _ hstep rfl)
      obtain ⟨g1, g2, g3, g4, -, g6, -, -, g9⟩ := Cleanup.C21_cleanup_prefix id _ _ next _ l inv.repr _ r hc
      rw [inv.repr.occ] at g2
      refine ⟨l.drop r.popped, hreach, g1, g9.trans inv.size, fun hi => absurd hi hne,
        (List.drop_suffix _ _).trans inv.suf, ?_, inv.past⟩
      intro _
      show K ≤ (l.drop r.popped).length ∨ l.drop r.popped = _
      rcases Nat.lt_or_ge h.limitSize l.length with hlim | hlim
      · left
        have := hset _ hlim
        rw [List.length_drop]; omega
      · rw [(g4 hlim).1]; exact inv.keep hne
  | finish _ hp he =>
    obtain ⟨q', e, hr, hs, -⟩ := flush_ok inv.repr
    have hstep : Session.Step c s s' := .finish _ _ hp he
    simp only [Session.finish, e, Outcome.bind_ok] at he
    injection he with he; subst he
    exact ⟨[], .step _ _ inv.reach (.other _ _ hstep rfl), hr, hs.trans inv.size, fun _ => rfl, List.nil_suffix, by simp,
      inv.past⟩
  | other _ st hd hl hr hi =>
    refine ⟨l, .step _ _ inv.reach (.other _ _ st hl), by rw [hd]; exact inv.repr, by rw [hd]; exact inv.size,
      fun hp => inv.idle (hi.1 hp), ?_, ?_, ?_⟩
    · rw [hl, hr]; exact inv.suf
    · intro hp
      rw [hl, hr]
      exact inv.keep (fun hx => hp (hi.2 hx))
    · rw [hl, hr]; exact inv.past

theorem inv_reach {rnd : ℚ → ℚ} {h : Conf.Handler} {c : Cfg} {n K : Nat} (hn : 2 ≤ n) (hset : Retain.Keeps rnd h K)
    {s : St} (hs : Reach rnd h c n s) : ∃ l, Inv c n K s l := by
  induction hs with
  | init =>
    exact ⟨[], .init, repr_init n hn, rfl, fun _ => rfl, List.nil_suffix, by simp [Session.St.init],
      by simp [Session.St.init]⟩
  | step s s' _ st ih =>
    obtain ⟨l, inv⟩ := ih
    exact inv_step hset inv st

/-! ### Concrete histories -/

/-- DAPHNE payloads 192 ticks apart on a buffer of 8 slots that is halved from five payloads on (settings of module
Retain): six payloads arrive, a cleanup removes three, a recording is going on. -/
theorem demo_run : ∃ s, Reach id Retain.halfHandler PdsLink.daphne 8 s ∧ s.phase = .running ∧
    storedLog s.log s.run = [1000, 1192, 1384, 1576, 1768, 5000] ∧
    s.p.q.visit 8 s.p.q.begin = .ok ([1576, 1768, 5000], endIdx) := by
  have rv : ∀ {s : St} {t : Nat} {q : Verif.Ring.Ring Nat} {b : Bool}, s.phase ≠ .idle → s.p.q.write t = .ok (q, b) →
      Step id Retain.halfHandler PdsLink.daphne s
        { s with p := ⟨{ s.p.ck with prev := t, last := t }, q⟩, log := s.log ++ [⟨s.run, t, b⟩] } :=
    fun {s t q b} hp h => .receive s _ t hp (by simp [PdsLink.receive, h])
  have r0 : Reach id Retain.halfHandler PdsLink.daphne 8 _ := .init
  have r1 := Reach.step _ _ r0 (.start _ rfl)
  have r2 := Reach.step _ _ r1 (rv (t := 1000) (by simp [startCmd]) rfl)
  have r3 := Reach.step _ _ r2 (rv (t := 1192) (by simp [startCmd]) rfl)
  have r4 := Reach.step _ _ r3 (rv (t := 1384) (by simp [startCmd]) rfl)
  have r5 := Reach.step _ _ r4 (rv (t := 1576) (by simp [startCmd]) rfl)
  have r6 := Reach.step _ _ r5 (rv (t := 1768) (by simp [startCmd]) rfl)
  have r7 := Reach.step _ _ r6 (rv (t := 5000) (by simp [startCmd]) rfl)
  have r8 := Reach.step _ _ r7 (.clean _ _ 4000 (Or.inl rfl) (Retain.passes (occ := 6) (k := 3) rfl rfl rfl))
  exact ⟨_, r8, rfl, rfl, rfl⟩

theorem daphne_kind8 : Kind PdsLink.daphne 8 := ⟨by decide, by decide, rfl, by decide, by decide⟩

/-! ### Property C104 -/

/-- **C104 (retention)** In every execution of a bisected link with accepted settings, refused payloads and recordings
included: during a run the buffer holds the last `K` payloads it took in that run, or all of them. -/
theorem C104_retained_partial (rnd : ℚ → ℚ) (hs : Conf.Single rnd) (h : Conf.Handler) (p : Conf.Params) (c : Cfg) (n K : Nat)
    (hn : 2 ≤ n) (hok : Cleanup.Accepted p.limitPct p.sizePct) (hcap : p.capacity = n)
    (hmax : p.sizePct ≤ 1 - 1 / 4194304) (hk : Retain.Kept p.limitPct p.sizePct n K) (s : St)
    (hx : Reach rnd (Conf.conf rnd h p).1 c n s) (hp : s.phase ≠ .idle) :
    ∃ l, Repr s.p.q l ∧ l <:+ storedLog s.log s.run ∧
      ∀ recent, recent <:+ storedLog s.log s.run → recent.length ≤ K → recent <:+ l := by
  obtain ⟨l, inv⟩ := inv_reach hn (Retain.keeps_of hs h p hok hcap hmax hk) hx
  refine ⟨l, inv.repr, inv.suf, ?_⟩
  intro recent h1 h2
  rcases inv.keep hp with h3 | h3
  · exact List.suffix_of_suffix_length_le h1 inv.suf (by omega)
  · rw [h3]; exact h1

/-- **C104 (requests)** Moreover, if what was stored goes forward in time, a request whose window lies within the last
`K` payloads stored is answered at its first evaluation, without the error bit and with exactly the frames of the window
among everything stored in the run. No condition on bursts, refused payloads or recordings. -/
theorem C104_recent_available_partial (rnd : ℚ → ℚ) (hs : Conf.Single rnd) (h : Conf.Handler) (p : Conf.Params) (c : Cfg)
    (n K : Nat) (hc : Kind c n) (hok : Cleanup.Accepted p.limitPct p.sizePct) (hcap : p.capacity = n)
    (hmax : p.sizePct ≤ 1 - 1 / 4194304) (hk : Retain.Kept p.limitPct p.sizePct n K) (s : St)
    (hx : Reach rnd (Conf.conf rnd h p).1 c n s) (hp : s.phase ≠ .idle)
    (hfw : Forward c.tick c.nf (storedLog s.log s.run)) (recent : List Nat)
    (hr : recent <:+ storedLog s.log s.run) (hl : recent.length ≤ K) (a z : Nat) (ha : recent.head? = some a)
    (hz : recent.getLast? = some z) (dr : Request) (h1 : a ≤ dr.wBegin) (h3 : dr.wEnd ≤ z) :
    ∃ r fr, answer c s dr = .ok r ∧ r.fragment = some fr ∧ fr.header.dataNotFound = false ∧
      ∀ f, f ∈ fr.frames ↔ InWindow c.tick c.nf (storedLog s.log s.run) dr.wBegin dr.wEnd f := by
  obtain ⟨l, inv⟩ := inv_reach hc.size (Retain.keeps_of hs h p hok hcap hmax hk) hx
  obtain ⟨l', hl', hsuf', -, hav⟩ := PdsLink.C93_available c n hc s inv.reach hfw
  have hll := repr_unique hl' inv.repr
  subst hll
  have hrl : recent <:+ l' := by
    rcases inv.keep hp with h4 | h4
    · exact List.suffix_of_suffix_length_le hr hsuf' (by omega)
    · rw [h4]; exact hr
  obtain ⟨b, hb⟩ : ∃ b, l'.head? = some b := by
    cases e : l' with
    | nil =>
      rw [e] at hrl
      have := List.suffix_nil.1 hrl
      subst this; simp at ha
    | cons b _ => exact ⟨b, rfl⟩
  have hba : b ≤ a := by
    obtain ⟨u, hu⟩ := hrl
    cases u with
    | nil =>
      rw [List.nil_append] at hu
      rw [hu, hb] at ha; injection ha with ha; omega
    | cons v u =>
      rw [← hu] at hb
      simp at hb; subst hb
      have hf' : Forward c.tick c.nf l' := hfw.sublist hsuf'.sublist
      rw [← hu] at hf'
      have := (List.pairwise_cons.1 hf').1 a (by
        exact List.mem_append_right u (List.mem_of_mem_head? ha))
      omega
  have hlast : l'.getLast? = some z := by
    obtain ⟨u, rfl⟩ := hrl
    rw [List.getLast?_append, hz]; rfl
  exact hav dr b z hb hlast (by omega) h3

example : ∃ s, Reach id (Conf.conf id Conf.Handler.new Retain.half).1 PdsLink.daphne 8 s ∧ s.phase ≠ .idle ∧
    Forward 16 12 (storedLog s.log s.run) ∧ [5000] <:+ storedLog s.log s.run ∧
    Retain.Kept Retain.half.limitPct Retain.half.sizePct 8 1 ∧ Kind PdsLink.daphne 8 := by
  obtain ⟨s, h1, h2, h3, -⟩ := demo_run
  refine ⟨s, h1, by simp [h2], ?_, ?_, Retain.half_kept, daphne_kind8⟩
  · rw [h3]; simp [Forward]
  · rw [h3]; exact ⟨[1000, 1192, 1384, 1576, 1768], rfl⟩

/-! ### Evaluations -/

theorem step_log {c : Cfg} {s s' : St} (st : PdsLink.Step c s s') (hp : s.phase = .running) :
    s'.run = s.run ∧ (s'.log = s.log ∨ ∃ a, s'.log = s.log ++ [a]) := by
  cases st with
  | receive t _ he =>
    cases hr : s.p.q.write t with
    | ub w => simp [PdsLink.receive, hr] at he
    | throws w => simp [PdsLink.receive, hr] at he
    | ok r =>
      simp only [PdsLink.receive, hr, Outcome.bind_ok] at he
      injection he with he; subst he
      exact ⟨rfl, .inr ⟨_, rfl⟩⟩
  | other st hl => exact ⟨(Retry.step_log st hp).1, .inl hl⟩

theorem forward_back {c : Cfg} {s s' : St} (st : PdsLink.Step c s s') (hp : s.phase = .running)
    (h : Forward c.tick c.nf (storedLog s'.log s'.run)) : Forward c.tick c.nf (storedLog s.log s.run) := by
  obtain ⟨h1, h2⟩ := step_log st hp
  rw [h1] at h
  rcases h2 with h2 | ⟨a, h2⟩
  · rwa [h2] at h
  · rw [h2, storedLog_append] at h
    exact (List.pairwise_append.1 h).1

theorem mem_step {c : Cfg} {s s' : St} (st : PdsLink.Step c s s') (hp : s.phase = .running) {t : Nat}
    (h : t ∈ storedLog s.log s.run) : t ∈ storedLog s'.log s'.run := by
  obtain ⟨h1, h2⟩ := step_log st hp
  rw [h1]
  rcases h2 with h2 | ⟨a, h2⟩
  · rwa [h2]
  · rw [h2, storedLog_append]; exact List.mem_append_left _ h

theorem newest_mem {c : Cfg} {n : Nat} (hc : Kind c n) {s : St} (h : PdsLink.Reach c n s) {t : Nat}
    (hn : Retry.newest s = .ok t) : t = 0 ∨ t ∈ storedLog s.log s.run := by
  obtain ⟨l, inv⟩ := PdsLink.inv_reach hc h
  cases hl : l.getLast? with
  | none =>
    left
    rw [List.getLast?_eq_none_iff] at hl
    subst hl
    have : s.p.q.rd = s.p.q.wr := inv.repr.rd_eq_wr.2 rfl
    have hb : s.p.q.back = none := by simp [Ring.back, this]
    simp only [Retry.newest, hb] at hn
    injection hn with hn
    exact hn.symm
  | some z =>
    right
    have hd := back_deref inv.repr hl
    have : t = z := by
      unfold Retry.newest at hn
      cases hb : s.p.q.back with
      | none => rw [hb] at hd; simp [Ring.derefPtr] at hd
      | some i =>
        rw [hb] at hn hd
        simp only [Ring.derefPtr] at hd
        simp only at hn
        rw [hd] at hn
        injection hn with hn
        exact hn.symm
    rw [this]
    exact inv.suf.subset (List.mem_of_getLast? hl)

/-- Once a payload later than the window has been stored, an evaluation gives an answer. -/
theorem answers {c : Cfg} {n : Nat} (hc : Kind c n) {s : St} (h : PdsLink.Reach c n s)
    (hf : Forward c.tick c.nf (storedLog s.log s.run)) {dr : Request} {t : Nat}
    (ht : t ∈ storedLog s.log s.run) (he : dr.wEnd < t) {r : Result Nat} (ha : answer c s dr = .ok r) :
    r.fragment ≠ none := by
  obtain ⟨l, inv⟩ := PdsLink.inv_reach hc h
  obtain ⟨r', e', hcode, hnone, -⟩ := PdsLink.answer_eval hc inv.repr inv.size inv.suf hf dr
  rw [ha] at e'; injection e' with e'; subst e'
  intro hno
  have hny := hnone.1 hno
  rw [hny] at hcode
  cases hl : l.getLast? with
  | none =>
    rw [List.getLast?_eq_none_iff] at hl
    subst hl
    simp [bounds, classify] at hcode
  | some z =>
    have hz : t ≤ z := by
      obtain ⟨pre, hpre⟩ := inv.suf
      have hlast : (storedLog s.log s.run).getLast? = some z := by rw [← hpre]; simp [hl]
      obtain ⟨ys, hys⟩ := List.getLast?_eq_some_iff.1 hlast
      rw [hys] at hf ht
      rcases List.mem_append.1 ht with h1 | h1
      · have := (List.pairwise_append.1 hf).2.2 t h1 z (by simp)
        omega
      · simp at h1; omega
    cases hh : l.head? with
    | none =>
      rw [List.head?_eq_none_iff] at hh
      subst hh
      simp at hl
    | some a =>
      simp only [bounds, hh, hl, classify] at hcode
      have h3 : dr.wEnd ≤ c.T.ts z := by show dr.wEnd ≤ z; omega
      by_cases h4 : dr.wBegin < c.T.ts a <;> simp [h3, h4] at hcode

theorem reach_link {c : Cfg} {n limit : Nat} {dr : Request} {x : Retry.St} (h : RReach c n limit dr x) :
    PdsLink.Reach c n x.s ∧ x.s.phase = .running := by
  induction h with
  | issued s h hp => exact ⟨h, hp⟩
  | step x x' h st ih =>
    cases st with
    | link s' hp st hp' => exact ⟨.step _ _ ih.1 st, hp'⟩
    | reply r fr h he hf => exact ih
    | notYet r h he hf => exact ih
    | park h => exact ih
    | pass r t h hn => exact ih

theorem bounded {c : Cfg} {n limit : Nat} (hc : Kind c n) {dr : Request} {x : Retry.St}
    (h : RReach c n limit dr x) (hf : Forward c.tick c.nf (storedLog x.s.log x.s.run)) :
    Retry.Bounded limit dr (storedLog x.s.log x.s.run) x := by
  induction h with
  | issued s h hp => exact .inl ⟨rfl, rfl⟩
  | step x x' h st ih =>
    cases st with
    | link s' hp st hp' =>
      have ih := ih (forward_back st hp hf)
      unfold Retry.Bounded at *
      cases hpl : x.place with
      | pool =>
        simp only [hpl] at *
        rcases ih with h1 | ⟨h1, h2, t, h3, h4⟩
        · exact .inl h1
        · exact .inr ⟨h1, h2, t, mem_step st hp h3, h4⟩
      | toPark => simp only [hpl] at *; exact ih
      | waiting r => simp only [hpl] at *; exact ih
      | answered b => simp only [hpl] at *; exact ih
    | reply r fr hp he hfr =>
      have ih := ih hf
      unfold Retry.Bounded at *
      simp only [hp] at ih
      rcases ih with ⟨h1, h2⟩ | ⟨h1, h2, -⟩
      · exact ⟨by simp [h1], by simp [h2]⟩
      · exact ⟨by simp [h1], h2⟩
    | notYet r hp he hfr =>
      have ih := ih hf
      unfold Retry.Bounded at *
      simp only [hp] at ih
      rcases ih with ⟨h1, h2⟩ | ⟨h1, h2, t, h3, h4⟩
      · exact ⟨by simp [h1], h2⟩
      · exact absurd hfr (answers hc (reach_link h).1 hf h3 h4 he)
    | park hp =>
      have ih := ih hf
      unfold Retry.Bounded at *
      simp only [hp] at ih
      exact ⟨ih.1, ih.2, Nat.zero_le _⟩
    | pass r t hp hn =>
      have ih := ih hf
      unfold Retry.Bounded at *
      simp only [hp] at ih
      obtain ⟨h1, h2, h3⟩ := ih
      unfold Retry.treat
      by_cases c1 : dr.wEnd < t
      · simp only [if_pos c1]
        refine .inr ⟨h1, by omega, t, ?_, c1⟩
        rcases newest_mem hc (reach_link h).1 hn with h0 | h0
        · omega
        · exact h0
      · by_cases c2 : r ≥ limit
        · simp only [if_neg c1, if_pos c2]
          exact ⟨by omega, by omega⟩
        · simp only [if_neg c1, if_neg c2]
          exact ⟨h1, by omega, by omega⟩

/-- **C104 (evaluations)** On a bisected link whose stored payloads of the run go forward in time, with gaps and refused
payloads: a request is evaluated at most twice and met by at most `limit + 1` passes, and after its second evaluation
it has been answered. -/
theorem C104_answered (c : Cfg) (n limit : Nat) (hc : Kind c n) (dr : Request)
    (x : Retry.St) (h : RReach c n limit dr x) (hf : Forward c.tick c.nf (storedLog x.s.log x.s.run)) :
    x.evals ≤ 2 ∧ x.passes ≤ limit + 1 ∧ (x.evals = 2 → ∃ b, x.place = .answered b) ∧
      (x.passes = limit + 1 → (∃ b, x.place = .answered b) ∨ x.place = .pool) := by
  have b := bounded hc h hf
  unfold Retry.Bounded at b
  cases hp : x.place with
  | pool =>
    simp only [hp] at b
    rcases b with ⟨h1, h2⟩ | ⟨h1, h2, -⟩
    · exact ⟨by omega, by omega, fun h => by omega, fun _ => .inr rfl⟩
    · exact ⟨by omega, h2, fun h => by omega, fun _ => .inr rfl⟩
  | toPark =>
    simp only [hp] at b
    exact ⟨by omega, by omega, fun h => by omega, fun h => by omega⟩
  | waiting r =>
    simp only [hp] at b
    exact ⟨by omega, by omega, fun h => by omega, fun h => by omega⟩
  | answered t =>
    simp only [hp] at b
    exact ⟨b.1, b.2, fun _ => ⟨t, rfl⟩, fun _ => .inl ⟨t, rfl⟩⟩

/-- **C104 (progress)** Nothing holds the request up, and no evaluation is undefined. -/
theorem C104_progress (c : Cfg) (n limit : Nat) (hc : Kind c n) (dr : Request)
    (x : Retry.St) (h : RReach c n limit dr x) (hf : Forward c.tick c.nf (storedLog x.s.log x.s.run))
    (ho : ∀ b, x.place ≠ .answered b) : ∃ x', RStep c limit dr x x' ∧ x'.s = x.s ∧ x'.place ≠ x.place := by
  obtain ⟨h1, -⟩ := reach_link h
  obtain ⟨l, inv⟩ := PdsLink.inv_reach hc h1
  cases hp : x.place with
  | pool =>
    obtain ⟨r, e, -, -, -⟩ := PdsLink.answer_eval hc inv.repr inv.size inv.suf hf dr
    cases hfr : r.fragment with
    | none => exact ⟨_, .notYet x r hp e hfr, rfl, by simp⟩
    | some fr => exact ⟨_, .reply x r fr hp e hfr, rfl, by simp⟩
  | toPark => exact ⟨_, .park x hp, rfl, by simp [Retry.parked]⟩
  | waiting r =>
    have hn : ∃ t, Retry.newest x.s = .ok t := by
      unfold Retry.newest
      cases hl : l.getLast? with
      | none =>
        rw [List.getLast?_eq_none_iff] at hl
        subst hl
        have : x.s.p.q.rd = x.s.p.q.wr := inv.repr.rd_eq_wr.2 rfl
        have hb : x.s.p.q.back = none := by simp [Ring.back, this]
        exact ⟨0, by rw [hb]⟩
      | some z =>
        have hd := back_deref inv.repr hl
        cases hb : x.s.p.q.back with
        | none => exact ⟨0, rfl⟩
        | some i => rw [hb] at hd; simp only [Ring.derefPtr] at hd; exact ⟨z, hd⟩
    obtain ⟨t, hn⟩ := hn
    refine ⟨_, .pass x r t hp hn, rfl, ?_⟩
    simp only [Retry.treat]
    split
    · simp
    · split
      · simp
      · simp
  | answered b => exact absurd hp (ho b)

/-- An ordinary life across a hole in the data: [4990, 5300) is issued when 1000, 1192, 5000 have arrived and 5192 has
been refused; it is parked, left on the list by one pass, and answered by its second evaluation after a cleanup and the
arrival of 5384. -/
example : ∃ x, RReach PdsLink.daphne 4 5 ⟨1, 5000, 4990, 5300, 5, 0⟩ x ∧
    storedLog x.s.log x.s.run = [1000, 1192, 5000, 5384] ∧ runLog x.s.log x.s.run = [1000, 1192, 5000, 5192, 5384] ∧
    Forward 16 12 (storedLog x.s.log x.s.run) ∧ x.evals = 2 ∧ x.passes = 2 ∧ x.place = .answered false := by
  have r0 : PdsLink.Reach PdsLink.daphne 4 _ := .init
  have r1 := PdsLink.Reach.step _ _ r0 (.other _ _ (.start _ rfl) rfl)
  have r2 := PdsLink.Reach.step _ _ r1 (PdsLink.recv (t := 1000) (by simp [startCmd]) rfl)
  have r3 := PdsLink.Reach.step _ _ r2 (PdsLink.recv (t := 1192) (by simp [startCmd]) rfl)
  have r4 := PdsLink.Reach.step _ _ r3 (PdsLink.recv (t := 5000) (by simp [startCmd]) rfl)
  have r5 := PdsLink.Reach.step _ _ r4 (PdsLink.recv (t := 5192) (by simp [startCmd]) rfl)
  have x0 : RReach PdsLink.daphne 4 5 ⟨1, 5000, 4990, 5300, 5, 0⟩ _ := .issued _ r5 rfl
  have x1 := RReach.step _ _ x0 (.notYet _ _ rfl rfl rfl)
  have x2 := RReach.step _ _ x1 (.park _ rfl)
  have x3 := RReach.step _ _ x2 (.pass _ 0 5000 rfl rfl)
  have x4 := RReach.step _ _ x3 (.link _ _ rfl
    (.other _ _ (.clean _ _ 2 1 18446744073709551615 (Or.inl rfl) rfl) rfl) rfl)
  have x5 := RReach.step _ _ x4 (.link _ _ rfl (PdsLink.recv (t := 5384) (by simp [startCmd]) rfl) rfl)
  have x6 := RReach.step _ _ x5 (.pass _ 1 5384 rfl rfl)
  have x7 := RReach.step _ _ x6 (.reply _ _ _ rfl rfl rfl)
  refine ⟨_, x7, rfl, rfl, ?_, rfl, rfl, rfl⟩
  show Forward 16 12 [1000, 1192, 5000, 5384]
  simp [Forward]

/-- The window [5100, 100), which ends before it begins and would circulate on a fixed-rate link
(`C99_inverted_counterexample`), is answered by its first evaluation. -/
example : ∃ x, RReach PdsLink.daphne 4 5 ⟨1, 5000, 5100, 100, 5, 0⟩ x ∧
    Forward 16 12 (storedLog x.s.log x.s.run) ∧ x.evals = 1 ∧ x.place = .answered false := by
  have r0 : PdsLink.Reach PdsLink.daphne 4 _ := .init
  have r1 := PdsLink.Reach.step _ _ r0 (.other _ _ (.start _ rfl) rfl)
  have r2 := PdsLink.Reach.step _ _ r1 (PdsLink.recv (t := 1000) (by simp [startCmd]) rfl)
  have r3 := PdsLink.Reach.step _ _ r2 (PdsLink.recv (t := 5000) (by simp [startCmd]) rfl)
  have x0 : RReach PdsLink.daphne 4 5 ⟨1, 5000, 5100, 100, 5, 0⟩ _ := .issued _ r3 rfl
  have x1 := RReach.step _ _ x0 (.reply _ _ _ rfl rfl rfl)
  refine ⟨_, x1, ?_, rfl, rfl⟩
  show Forward 16 12 [1000, 5000]
  simp [Forward]

end Verif.PdsKeep
