import Verif.RetryModel
import Verif.SessionProps
import Verif.WaitingProps
/-
C99: a request is answered after at most two evaluations and a bounded number of passes.
-/
namespace Verif.Retry
open Verif.Ring Verif.DataReq Verif.Session

/-! ### A pass on a list with only this request -/

/-- What a pass over a list does to one request: nothing left on the list and what was done with it, or the request
with its new retry count. -/
def outcome (x : Waiting.Parked) : Place → List Waiting.Parked × Waiting.Log
  | .pool => ([], [(.reissue, x)])
  | .answered _ => ([], [(.timeout, x)])
  | .waiting r => ([{ x with retries := r }], [])
  | .toPark => ([], [])

/-- `treat` is the pass of module Waiting during the run. -/
theorem treat_scan (x : Waiting.Parked) (limit newest : Nat) (ctr : Waiting.Ctr) :
    ∃ ctr', Waiting.scan newest limit (fun _ => true) [x] ctr =
      .ok ((outcome x (treat x.req limit newest x.retries)).1, ctr',
        (outcome x (treat x.req limit newest x.retries)).2) := by
  unfold Waiting.scan treat
  by_cases h1 : x.req.wEnd < newest
  · exact ⟨ctr, by simp [Waiting.scanLoop, h1, Waiting.swapRemove, outcome]⟩
  · by_cases h2 : limit ≤ x.retries
    · exact ⟨_, by simp [Waiting.scanLoop, h1, h2, Waiting.swapRemove, outcome]; rfl⟩
    · exact ⟨ctr, by simp [Waiting.scanLoop, h1, h2, outcome]⟩

/-! ### The link during the run -/

theorem step_log {c : Cfg} {s s' : Session.St} (st : Session.Step c s s') (hp : s.phase = .running) :
    s'.run = s.run ∧ (s'.log = s.log ∨ ∃ a, s'.log = s.log ++ [a]) := by
  cases st with
  | start h => simp [hp] at h
  | receive _ t h he =>
    cases hr : Pipeline.receive (c.tick * c.nf) s.p t with
    | ub w => simp [Session.receive, hr] at he
    | throws w => simp [Session.receive, hr] at he
    | ok r =>
      simp only [Session.receive, hr, Outcome.bind_ok] at he
      injection he with he
      subst he
      exact ⟨rfl, .inr ⟨_, rfl⟩⟩
  | clean _ limit toPop next h he =>
    cases hr : Pipeline.clean limit toPop next s.p with
    | ub w => simp [Session.clean, hr] at he
    | throws w => simp [Session.clean, hr] at he
    | ok r =>
      simp only [Session.clean, hr, Outcome.bind_ok] at he
      injection he with he
      subst he
      exact ⟨rfl, .inl rfl⟩
  | issue dr h => exact ⟨rfl, .inl rfl⟩
  | reply x r fr h hp he hf => exact ⟨rfl, .inl rfl⟩
  | notYet x r h hp he hf => exact ⟨rfl, .inl rfl⟩
  | park x h => exact ⟨rfl, .inl rfl⟩
  | reissue x h hw => exact ⟨rfl, .inl rfl⟩
  | giveUp x h hw => exact ⟨rfl, .inl rfl⟩
  | stopCall hp => exact ⟨rfl, .inl rfl⟩
  | waiterExit hp h => exact ⟨rfl, .inl rfl⟩
  | join hp hw h1 h2 => exact ⟨rfl, .inl rfl⟩
  | finish _ h he => simp [hp] at h

/-- Payloads of the run went forward in time and none was refused. -/
def Fine (c : Cfg) (s : Session.St) : Prop :=
  AllStored s.log s.run ∧ Steady (c.tick * c.nf) (runLog s.log s.run)

theorem fine_back {c : Cfg} {s s' : Session.St} (st : Session.Step c s s') (hp : s.phase = .running)
    (h : Fine c s') : Fine c s := by
  obtain ⟨h1, h2⟩ := step_log st hp
  unfold Fine at *
  rw [h1] at h
  rcases h2 with h2 | ⟨a, h2⟩
  · rwa [h2] at h
  · rw [h2] at h
    rw [runLog_append] at h
    exact ⟨allStored_append h.1, steady_prefix h.2⟩

theorem mem_step {c : Cfg} {s s' : Session.St} (st : Session.Step c s s') (hp : s.phase = .running) {t : Nat}
    (h : t ∈ runLog s.log s.run) : t ∈ runLog s'.log s'.run := by
  obtain ⟨h1, h2⟩ := step_log st hp
  rw [h1]
  rcases h2 with h2 | ⟨a, h2⟩
  · rwa [h2]
  · rw [h2, runLog_append]; exact List.mem_append_left _ h

/-- The newest payload, if the run was fine, is the last one received, unless the buffer is empty. -/
theorem newest_mem {c : Cfg} {n : Nat} (hc : Session.Link c n) {s : Session.St} (h : Session.Reach c n s) {t : Nat}
    (hn : newest s = .ok t) : t = 0 ∨ t ∈ runLog s.log s.run := by
  obtain ⟨l, inv⟩ := Session.inv_reach hc h
  cases hl : l.getLast? with
  | none =>
    left
    rw [List.getLast?_eq_none_iff] at hl
    subst hl
    have : s.p.q.rd = s.p.q.wr := inv.repr.rd_eq_wr.2 rfl
    have hb : s.p.q.back = none := by simp [Ring.back, this]
    simp only [newest, hb] at hn
    injection hn with hn
    exact hn.symm
  | some z =>
    right
    have hd := back_deref inv.repr hl
    have : t = z := by
      unfold newest at hn
      cases hb : s.p.q.back with
      | none => rw [hb] at hd; simp [Ring.derefPtr] at hd
      | some i =>
        rw [hb] at hn hd
        simp only [Ring.derefPtr] at hd
        simp only at hn
        rw [hd] at hn
        injection hn with hn
        exact hn.symm
    rw [this]
    exact inv.own.subset (List.mem_of_getLast? hl)

/-- If a payload later than the window has been received in a fine run, an evaluation gives an answer. -/
theorem answers {c : Cfg} {n : Nat} (hc : Session.Link c n) {s : Session.St} (h : Session.Reach c n s)
    (hf : Fine c s) {dr : Request} (hw : dr.wBegin ≤ dr.wEnd) {t : Nat} (ht : t ∈ runLog s.log s.run)
    (he : dr.wEnd < t) {r : Result Nat} (ha : answer c s dr = .ok r) : r.fragment ≠ none := by
  obtain ⟨l, inv⟩ := Session.inv_reach hc h
  have pinv := inv.flow hf.1 hf.2
  obtain ⟨r', e', hcode, hnone, -⟩ := answer_eval hc pinv hf.2 dr hw
  rw [ha] at e'; injection e' with e'; subst e'
  intro hno
  have hny := hnone.1 hno
  rw [hny] at hcode
  cases hl : l.getLast? with
  | none =>
    rw [List.getLast?_eq_none_iff] at hl
    subst hl
    simp [bounds, classify] at hcode
  | some z =>
    have hz : t ≤ z := by
      obtain ⟨pre, hpre⟩ := pinv.suf
      have hlast : (runLog s.log s.run).getLast? = some z := by rw [← hpre]; simp [hl]
      obtain ⟨ys, hys⟩ := List.getLast?_eq_some_iff.1 hlast
      have st := hf.2.1
      rw [hys] at st ht
      rcases List.mem_append.1 ht with h1 | h1
      · have := (List.pairwise_append.1 st).2.2 t h1 z (by simp)
        omega
      · simp at h1; omega
    cases hh : l.head? with
    | none =>
      rw [List.head?_eq_none_iff] at hh
      subst hh
      simp at hl
    | some a =>
      simp only [bounds, hh, hl, classify] at hcode
      have h3 : dr.wEnd ≤ c.T.ts z := by show dr.wEnd ≤ z; omega
      by_cases h4 : dr.wBegin < c.T.ts a <;> simp [h3, h4] at hcode

/-! ### C99 -/

/-- How far the request has come, in terms of its evaluations and passes. -/
def Bounded (limit : Nat) (dr : Request) (log : List Nat) (x : St) : Prop :=
  match x.place with
  | .pool => (x.evals = 0 ∧ x.passes = 0) ∨ (x.evals = 1 ∧ x.passes ≤ limit + 1 ∧ ∃ t ∈ log, dr.wEnd < t)
  | .toPark => x.evals = 1 ∧ x.passes = 0
  | .waiting r => x.evals = 1 ∧ x.passes = r ∧ r ≤ limit
  | .answered _ => x.evals ≤ 2 ∧ x.passes ≤ limit + 1

theorem reach_link {c : Cfg} {n limit : Nat} {dr : Request} {x : St} (h : Reach c n limit dr x) :
    Session.Reach c n x.s ∧ x.s.phase = .running := by
  induction h with
  | issued s h hp => exact ⟨h, hp⟩
  | step x x' h st ih =>
    cases st with
    | link s' hp st hp' => exact ⟨.step _ _ ih.1 st, hp'⟩
    | reply r fr h he hf => exact ih
    | notYet r h he hf => exact ih
    | park h => exact ih
    | pass r t h hn => exact ih

theorem bounded {c : Cfg} {n limit : Nat} (hc : Session.Link c n) {dr : Request} (hw : dr.wBegin ≤ dr.wEnd) {x : St}
    (h : Reach c n limit dr x) (hf : Fine c x.s) : Bounded limit dr (runLog x.s.log x.s.run) x := by
  induction h with
  | issued s h hp => exact .inl ⟨rfl, rfl⟩
  | step x x' h st ih =>
    cases st with
    | link s' hp st hp' =>
      have ih := ih (fine_back st hp hf)
      unfold Bounded at *
      cases hpl : x.place with
      | pool =>
        simp only [hpl] at *
        rcases ih with h1 | ⟨h1, h2, t, h3, h4⟩
        · exact .inl h1
        · exact .inr ⟨h1, h2, t, mem_step st hp h3, h4⟩
      | toPark => simp only [hpl] at *; exact ih
      | waiting r => simp only [hpl] at *; exact ih
      | answered b => simp only [hpl] at *; exact ih
    | reply r fr hp he hfr =>
      have ih := ih hf
      unfold Bounded at *
      simp only [hp] at ih
      rcases ih with ⟨h1, h2⟩ | ⟨h1, h2, -⟩
      · exact ⟨by simp [h1], by simp [h2]⟩
      · exact ⟨by simp [h1], h2⟩
    | notYet r hp he hfr =>
      have ih := ih hf
      unfold Bounded at *
      simp only [hp] at ih
      rcases ih with ⟨h1, h2⟩ | ⟨h1, h2, t, h3, h4⟩
      · exact ⟨by simp [h1], h2⟩
      · exact absurd hfr (answers hc (reach_link h).1 hf hw h3 h4 he)
    | park hp =>
      have ih := ih hf
      unfold Bounded at *
      simp only [hp] at ih
      exact ⟨ih.1, ih.2, Nat.zero_le _⟩
    | pass r t hp hn =>
      have ih := ih hf
      unfold Bounded at *
      simp only [hp] at ih
      obtain ⟨h1, h2, h3⟩ := ih
      unfold treat
      by_cases c1 : dr.wEnd < t
      · simp only [if_pos c1]
        refine .inr ⟨h1, by omega, t, ?_, c1⟩
        rcases newest_mem hc (reach_link h).1 hn with h0 | h0
        · omega
        · exact h0
      · by_cases c2 : r ≥ limit
        · simp only [if_neg c1, if_pos c2]
          exact ⟨by omega, by omega⟩
        · simp only [if_neg c1, if_neg c2]
          exact ⟨h1, by omega, by omega⟩

/-- C99. On a link whose payloads of the run went forward in time, none of them refused by a full buffer: whatever else
happens, a request is evaluated at most twice and met by at most `limit + 1` passes over the waiting list, and after
its second evaluation it has been answered. Partial: false if a payload was refused
(`C99_refused_counterexample`) or the window ends before it begins (`C99_inverted_counterexample`). -/
theorem C99_answered_partial {c : Cfg} {n limit : Nat} (hc : Session.Link c n) {dr : Request}
    (hw : dr.wBegin ≤ dr.wEnd) {x : St} (h : Reach c n limit dr x) (hs : AllStored x.s.log x.s.run)
    (hst : Steady (c.tick * c.nf) (runLog x.s.log x.s.run)) :
    x.evals ≤ 2 ∧ x.passes ≤ limit + 1 ∧ (x.evals = 2 → ∃ b, x.place = .answered b) ∧
      (x.passes = limit + 1 → (∃ b, x.place = .answered b) ∨ x.place = .pool) := by
  have b := bounded hc hw h ⟨hs, hst⟩
  unfold Bounded at b
  cases hp : x.place with
  | pool =>
    simp only [hp] at b
    rcases b with ⟨h1, h2⟩ | ⟨h1, h2, -⟩
    · exact ⟨by omega, by omega, fun h => by omega, fun _ => .inr rfl⟩
    · exact ⟨by omega, h2, fun h => by omega, fun _ => .inr rfl⟩
  | toPark =>
    simp only [hp] at b
    exact ⟨by omega, by omega, fun h => by omega, fun h => by omega⟩
  | waiting r =>
    simp only [hp] at b
    exact ⟨by omega, by omega, fun h => by omega, fun h => by omega⟩
  | answered t =>
    simp only [hp] at b
    exact ⟨b.1, b.2, fun _ => ⟨t, rfl⟩, fun _ => .inl ⟨t, rfl⟩⟩

/-- If a payload at or after both ends of the window has been received in a fine run, an evaluation gives an answer. -/
theorem answers_any {c : Cfg} {n : Nat} (hc : Session.Link c n) {s : Session.St} (h : Session.Reach c n s)
    (hf : Fine c s) {dr : Request} {t : Nat} (ht : t ∈ runLog s.log s.run) (hb : dr.wBegin ≤ t) (he : dr.wEnd ≤ t)
    {r : Result Nat} (ha : answer c s dr = .ok r) : r.fragment ≠ none := by
  obtain ⟨l, inv⟩ := Session.inv_reach hc h
  have pinv := inv.flow hf.1 hf.2
  obtain ⟨r', e', hcode, hnone, -⟩ := answer_any hc pinv hf.2 dr
  rw [ha] at e'; injection e' with e'; subst e'
  intro hno
  have hny := hnone.1 hno
  cases hl : l.getLast? with
  | none =>
    rw [List.getLast?_eq_none_iff] at hl
    subst hl
    have := inv.repr.occ
    have h0 : s.p.q.occupancy = 0 := this
    simp only [answer, dataRequest, h0] at ha
    simp at ha
    subst ha
    simp at hno
  | some z =>
    have hz : t ≤ z := by
      obtain ⟨pre, hpre⟩ := pinv.suf
      have hlast : (runLog s.log s.run).getLast? = some z := by rw [← hpre]; simp [hl]
      obtain ⟨ys, hys⟩ := List.getLast?_eq_some_iff.1 hlast
      have st := hf.2.1
      rw [hys] at st ht
      rcases List.mem_append.1 ht with h1 | h1
      · have := (List.pairwise_append.1 st).2.2 t h1 z (by simp)
        omega
      · simp at h1; omega
    have hcode := hcode (.inr ⟨z, hl, by omega⟩)
    rw [hny] at hcode
    cases hh : l.head? with
    | none =>
      rw [List.head?_eq_none_iff] at hh
      subst hh
      simp at hl
    | some a =>
      simp only [bounds, hh, hl, classify] at hcode
      have h3 : dr.wEnd ≤ c.T.ts z := by show dr.wEnd ≤ z; omega
      by_cases h4 : dr.wBegin < c.T.ts a <;> simp [h3, h4] at hcode

/-- What can happen from one state to a later one. -/
inductive Later (c : Cfg) (limit : Nat) (dr : Request) (x : St) : St → Prop where
  | refl : Later c limit dr x x
  | step (y z : St) (h : Later c limit dr x y) (st : Step c limit dr y z) : Later c limit dr x z

theorem later_reach {c : Cfg} {n limit : Nat} {dr : Request} {x y : St} (hx : Reach c n limit dr x)
    (h : Later c limit dr x y) : Reach c n limit dr y := by
  induction h with
  | refl => exact hx
  | step y z _ st ih => exact .step _ _ ih st

theorem retries_le {c : Cfg} {n limit : Nat} {dr : Request} {x : St} (h : Reach c n limit dr x) :
    ∀ r, x.place = .waiting r → r ≤ limit := by
  induction h with
  | issued s h hp => intro r hr; cases hr
  | step x x' h st ih =>
    cases st with
    | link s' hp st hp' => exact ih
    | reply r fr h he hf => intro r hr; cases hr
    | notYet r h he hf => intro r hr; cases hr
    | park h => intro r hr; injection hr with hr; omega
    | pass r t h hn =>
      intro r' hr
      simp only [treat] at hr
      split at hr
      · cases hr
      · split at hr
        · cases hr
        · injection hr with hr; omega

/-- Evaluations and passes since the state `x`. -/
def Since (limit : Nat) (x y : St) : Prop :=
  match y.place with
  | .pool => y.evals = x.evals ∧ y.passes ≤ x.passes + limit + 1
  | .toPark => y.evals = x.evals ∧ y.passes = x.passes
  | .waiting r => y.evals = x.evals ∧ y.passes ≤ x.passes + r ∧ r ≤ limit
  | .answered _ => y.evals ≤ x.evals + 1 ∧ y.passes ≤ x.passes + limit + 1

theorem since {c : Cfg} {n limit : Nat} (hc : Session.Link c n) {dr : Request} {x y : St} (hx : Reach c n limit dr x)
    {t : Nat} (ht : t ∈ runLog x.s.log x.s.run) (hb : dr.wBegin ≤ t) (he : dr.wEnd ≤ t)
    (h : Later c limit dr x y) (hf : Fine c y.s) : Since limit x y ∧ t ∈ runLog y.s.log y.s.run := by
  induction h with
  | refl =>
    refine ⟨?_, ht⟩
    unfold Since
    cases hp : x.place with
    | pool => exact ⟨rfl, by omega⟩
    | toPark => exact ⟨rfl, rfl⟩
    | waiting r => exact ⟨rfl, by omega, retries_le hx r hp⟩
    | answered b => exact ⟨by omega, by omega⟩
  | step y z h st ih =>
    cases st with
    | link s' hp st hp' =>
      obtain ⟨ih, hm⟩ := ih (fine_back st hp hf)
      exact ⟨ih, mem_step st hp hm⟩
    | reply r fr hp ha hfr =>
      obtain ⟨ih, hm⟩ := ih hf
      refine ⟨?_, hm⟩
      unfold Since at *
      simp only [hp] at ih
      exact ⟨by simp [ih.1], ih.2⟩
    | notYet r hp ha hfr =>
      obtain ⟨ih, hm⟩ := ih hf
      exact absurd hfr (answers_any hc (reach_link (later_reach hx h)).1 hf hm hb he ha)
    | park hp =>
      obtain ⟨ih, hm⟩ := ih hf
      refine ⟨?_, hm⟩
      unfold Since at *
      simp only [hp] at ih
      exact ⟨ih.1, by simp [ih.2], Nat.zero_le _⟩
    | pass r u hp hn =>
      obtain ⟨ih, hm⟩ := ih hf
      refine ⟨?_, hm⟩
      unfold Since at *
      simp only [hp] at ih
      obtain ⟨h1, h2, h3⟩ := ih
      unfold treat
      by_cases c1 : dr.wEnd < u
      · simp only [if_pos c1]
        exact ⟨h1, by omega⟩
      · by_cases c2 : r ≥ limit
        · simp only [if_neg c1, if_pos c2]
          exact ⟨by omega, by omega⟩
        · simp only [if_neg c1, if_neg c2]
          exact ⟨h1, by omega, by omega⟩

/-- C99, for every window, also one that ends before it begins. From the moment at which a payload at or after both ends of the
window has been received, the request is evaluated at most once more and met by at most `limit + 1` further passes; after that
evaluation it has been answered. Partial: on a link whose payloads of the run went forward in time, none refused. -/
theorem C99_every_window_partial {c : Cfg} {n limit : Nat} (hc : Session.Link c n) {dr : Request} {x y : St}
    (hx : Reach c n limit dr x) {t : Nat} (ht : t ∈ runLog x.s.log x.s.run) (hb : dr.wBegin ≤ t) (he : dr.wEnd ≤ t)
    (h : Later c limit dr x y) (hs : AllStored y.s.log y.s.run)
    (hst : Steady (c.tick * c.nf) (runLog y.s.log y.s.run)) :
    y.evals ≤ x.evals + 1 ∧ y.passes ≤ x.passes + limit + 1 ∧
      (y.evals = x.evals + 1 → ∃ b, y.place = .answered b) := by
  obtain ⟨b, -⟩ := since hc hx ht hb he h ⟨hs, hst⟩
  unfold Since at b
  cases hp : y.place with
  | pool => simp only [hp] at b; exact ⟨by omega, by omega, fun h => by omega⟩
  | toPark => simp only [hp] at b; exact ⟨by omega, by omega, fun h => by omega⟩
  | waiting r => simp only [hp] at b; exact ⟨by omega, by omega, fun h => by omega⟩
  | answered a => simp only [hp] at b; exact ⟨b.1, b.2, fun _ => ⟨a, rfl⟩⟩

/-- C99. Nothing holds the request up, whatever its window: while it is not answered, the pool, the thread parking it, or the next pass can
treat it. -/
theorem C99_progress {c : Cfg} {n limit : Nat} (hc : Session.Link c n) {dr : Request}
    {x : St} (h : Reach c n limit dr x) (hs : AllStored x.s.log x.s.run)
    (hst : Steady (c.tick * c.nf) (runLog x.s.log x.s.run)) (ho : ∀ b, x.place ≠ .answered b) :
    ∃ x', Step c limit dr x x' ∧ x'.s = x.s ∧ x'.place ≠ x.place := by
  obtain ⟨h1, -⟩ := reach_link h
  obtain ⟨l, inv⟩ := Session.inv_reach hc h1
  cases hp : x.place with
  | pool =>
    obtain ⟨r, e, -, -, -⟩ := answer_any hc (inv.flow hs hst) hst dr
    cases hf : r.fragment with
    | none => exact ⟨_, .notYet x r hp e hf, rfl, by simp⟩
    | some fr => exact ⟨_, .reply x r fr hp e hf, rfl, by simp⟩
  | toPark => exact ⟨_, .park x hp, rfl, by simp [parked]⟩
  | waiting r =>
    have hn : ∃ t, newest x.s = .ok t := by
      unfold newest
      cases hl : l.getLast? with
      | none =>
        rw [List.getLast?_eq_none_iff] at hl
        subst hl
        have : x.s.p.q.rd = x.s.p.q.wr := inv.repr.rd_eq_wr.2 rfl
        exact ⟨0, by simp [Ring.back, this]⟩
      | some z =>
        have hd := back_deref inv.repr hl
        cases hb : x.s.p.q.back with
        | none => rw [hb] at hd; simp [Ring.derefPtr] at hd
        | some i => rw [hb] at hd; exact ⟨z, hd⟩
    obtain ⟨t, ht⟩ := hn
    refine ⟨_, .pass x r t hp ht, rfl, ?_⟩
    unfold treat
    split
    · simp
    · split <;> simp
  | answered b => exact absurd hp (ho b)

/-! ### Requests that are not answered while the run lasts -/

/-- A request evaluated as not yet in a state whose newest payload is past its window goes round and round. -/
theorem spin {c : Cfg} {n limit : Nat} {dr : Request} {s : Session.St} {r : Result Nat} {t : Nat}
    (h : Session.Reach c n s) (hp : s.phase = .running) (he : answer c s dr = .ok r) (hf : r.fragment = none)
    (hn : newest s = .ok t) (hw : dr.wEnd < t) (k : Nat) : Reach c n limit dr ⟨s, .pool, k, k⟩ := by
  induction k with
  | zero => exact .issued s h hp
  | succ k ih =>
    have h1 := Reach.step _ _ ih (.notYet _ r rfl he hf)
    have h2 := Reach.step _ _ h1 (.park _ rfl)
    have h3 := Reach.step _ _ h2 (.pass _ 0 t rfl hn)
    have e : treat dr limit t 0 = .pool := by simp [treat, hw]
    simp only [e] at h3
    exact h3

/-- C99 is false: with payloads 1200 to 1800 refused by a full buffer, the request for [1600, 2000) on the stored
payloads 900 and 2100 is evaluated any number of times, met by any number of passes, and not answered; the retry limit
does not help. -/
theorem C99_refused_counterexample (limit : Nat) :
    ∃ s, Session.Reach wib 4 s ∧ Steady (wib.tick * wib.nf) (runLog s.log s.run) ∧
      s.p.q.visit 4 s.p.q.begin = .ok ([900, 2100], endIdx) ∧
      ∀ k, Reach wib 4 limit ⟨1, 1700, 1600, 2000, 5, 0⟩ ⟨s, .pool, k, k⟩ := by
  have r0 : Session.Reach wib 4 _ := .init
  have r1 := Session.Reach.step _ _ r0 (.start _ rfl)
  have r2 := Session.Reach.step _ _ r1
    (.receive _ _ 300 (by simp [startCmd]) (recv (Pipeline.receive_in_step rfl (by decide) rfl)))
  have r3 := Session.Reach.step _ _ r2
    (.receive _ _ 600 (by simp [startCmd]) (recv (Pipeline.receive_in_step rfl (by decide) rfl)))
  have r4 := Session.Reach.step _ _ r3
    (.receive _ _ 900 (by simp [startCmd]) (recv (Pipeline.receive_in_step rfl (by decide) rfl)))
  have r5 := Session.Reach.step _ _ r4
    (.receive _ _ 1200 (by simp [startCmd]) (recv (Pipeline.receive_in_step rfl (by decide) rfl)))
  have r6 := Session.Reach.step _ _ r5
    (.receive _ _ 1500 (by simp [startCmd]) (recv (Pipeline.receive_in_step rfl (by decide) rfl)))
  have r7 := Session.Reach.step _ _ r6
    (.receive _ _ 1800 (by simp [startCmd]) (recv (Pipeline.receive_in_step rfl (by decide) rfl)))
  have r8 := Session.Reach.step _ _ r7 (.clean _ _ 2 2 18446744073709551615 (Or.inl rfl) rfl)
  have r9 := Session.Reach.step _ _ r8
    (.receive _ _ 2100 (by simp [startCmd]) (recv (Pipeline.receive_in_step rfl (by decide) rfl)))
  refine ⟨_, r9, ?_, rfl, fun k => spin (t := 2100) r9 rfl rfl rfl rfl (by decide) k⟩
  simp [Steady, wib, runLog, startCmd, Session.St.init]

/-- C99 is false: a window that ends before it begins, [3000, 100), on a link without any fault. -/
theorem C99_inverted_counterexample (limit : Nat) :
    ∃ s, Session.Reach wib 4 s ∧ AllStored s.log s.run ∧ Steady (wib.tick * wib.nf) (runLog s.log s.run) ∧
      ∀ k, Reach wib 4 limit ⟨1, 700, 3000, 100, 5, 0⟩ ⟨s, .pool, k, k⟩ := by
  have r0 : Session.Reach wib 4 _ := .init
  have r1 := Session.Reach.step _ _ r0 (.start _ rfl)
  have r2 := Session.Reach.step _ _ r1
    (.receive _ _ 300 (by simp [startCmd]) (recv (Pipeline.receive_in_step rfl (by decide) rfl)))
  have r3 := Session.Reach.step _ _ r2
    (.receive _ _ 600 (by simp [startCmd]) (recv (Pipeline.receive_in_step rfl (by decide) rfl)))
  refine ⟨_, r3, ?_, ?_, fun k => spin (t := 600) r3 rfl rfl rfl rfl (by decide) k⟩
  · simp [AllStored, startCmd, Session.St.init]
  · simp [Steady, wib, runLog, startCmd, Session.St.init]

/-- `C99_every_window_partial`: the window [850, 100) goes round until more has arrived, and is then answered. -/
example : ∃ x y, Reach wib 4 5 ⟨1, 700, 850, 100, 5, 0⟩ x ∧ Later wib 5 ⟨1, 700, 850, 100, 5, 0⟩ x y ∧ x.evals = 2 ∧
    900 ∈ runLog x.s.log x.s.run ∧ AllStored y.s.log y.s.run ∧ Steady (wib.tick * wib.nf) (runLog y.s.log y.s.run) ∧
    y.evals = 3 ∧ y.place = .answered false := by
  have r0 : Session.Reach wib 4 _ := .init
  have r1 := Session.Reach.step _ _ r0 (.start _ rfl)
  have r2 := Session.Reach.step _ _ r1
    (.receive _ _ 300 (by simp [startCmd]) (recv (Pipeline.receive_in_step rfl (by decide) rfl)))
  have x0 : Reach wib 4 5 ⟨1, 700, 850, 100, 5, 0⟩ _ := .issued _ r2 rfl
  have x1 := Reach.step _ _ x0 (.notYet _ _ rfl rfl rfl)
  have x2 := Reach.step _ _ x1 (.park _ rfl)
  have x3 := Reach.step _ _ x2 (.pass _ 0 300 rfl rfl)
  have x4 := Reach.step _ _ x3 (.notYet _ _ rfl rfl rfl)
  have x5 := Reach.step _ _ x4 (.link _ _ rfl
    (.receive _ _ 600 (by simp [startCmd]) (recv (Pipeline.receive_in_step rfl (by decide) rfl))) rfl)
  have x6 := Reach.step _ _ x5 (.link _ _ rfl
    (.receive _ _ 900 (by simp [startCmd]) (recv (Pipeline.receive_in_step rfl (by decide) rfl))) rfl)
  refine ⟨_, _, x6, .step _ _ (.step _ _ (.step _ _ .refl (.park _ rfl)) (.pass _ 0 900 rfl rfl)) (.reply _ _ _ rfl rfl rfl),
    rfl, ?_, ?_, ?_, rfl, rfl⟩
  · simp [runLog, startCmd, Session.St.init]
  · simp [AllStored, startCmd, Session.St.init]
  · simp [Steady, wib, runLog, startCmd, Session.St.init]

/-- An ordinary life: [650, 850) is issued when 300 and 600 have arrived, parked, left on the list by one pass, and
answered by its second evaluation after 900 has arrived. -/
example : ∃ x, Reach wib 4 5 ⟨1, 700, 650, 850, 5, 0⟩ x ∧ AllStored x.s.log x.s.run ∧
    Steady (wib.tick * wib.nf) (runLog x.s.log x.s.run) ∧ x.evals = 2 ∧ x.passes = 2 ∧ x.place = .answered false := by
  have r0 : Session.Reach wib 4 _ := .init
  have r1 := Session.Reach.step _ _ r0 (.start _ rfl)
  have r2 := Session.Reach.step _ _ r1
    (.receive _ _ 300 (by simp [startCmd]) (recv (Pipeline.receive_in_step rfl (by decide) rfl)))
  have r3 := Session.Reach.step _ _ r2
    (.receive _ _ 600 (by simp [startCmd]) (recv (Pipeline.receive_in_step rfl (by decide) rfl)))
  have x0 : Reach wib 4 5 ⟨1, 700, 650, 850, 5, 0⟩ _ := .issued _ r3 rfl
  have x1 := Reach.step _ _ x0 (.notYet _ _ rfl rfl rfl)
  have x2 := Reach.step _ _ x1 (.park _ rfl)
  have x3 := Reach.step _ _ x2 (.pass _ 0 600 rfl rfl)
  have x4 := Reach.step _ _ x3 (.link _ _ rfl
    (.receive _ _ 900 (by simp [startCmd]) (recv (Pipeline.receive_in_step rfl (by decide) rfl))) rfl)
  have x5 := Reach.step _ _ x4 (.pass _ 1 900 rfl rfl)
  have x6 := Reach.step _ _ x5 (.reply _ _ _ rfl rfl rfl)
  refine ⟨_, x6, ?_, ?_, rfl, rfl, rfl⟩
  · simp [AllStored, startCmd, Session.St.init]
  · simp [Steady, wib, runLog, startCmd, Session.St.init]

/-- A request is given up although its data are there: [650, 900) is parked while 600 is the newest payload; then 900
arrives, with which the window would be answered, but passes reissue only windows that end before the newest payload,
so the retries run out. -/
theorem C99_timeout_counterexample :
    ∃ x r fr, Reach wib 4 2 ⟨1, 700, 650, 900, 5, 0⟩ x ∧ AllStored x.s.log x.s.run ∧
      Steady (wib.tick * wib.nf) (runLog x.s.log x.s.run) ∧ x.place = .answered true ∧
      answer wib x.s ⟨1, 700, 650, 900, 5, 0⟩ = .ok r ∧ r.fragment = some fr ∧
      fr.header.dataNotFound = false ∧ fr.frames.length = 10 ∧
      ∃ y, Reach wib 4 2 ⟨1, 700, 650, 900, 5, 0⟩ y ∧ y.place = .waiting 0 ∧ y.s = x.s := by
  have r0 : Session.Reach wib 4 _ := .init
  have r1 := Session.Reach.step _ _ r0 (.start _ rfl)
  have r2 := Session.Reach.step _ _ r1
    (.receive _ _ 300 (by simp [startCmd]) (recv (Pipeline.receive_in_step rfl (by decide) rfl)))
  have r3 := Session.Reach.step _ _ r2
    (.receive _ _ 600 (by simp [startCmd]) (recv (Pipeline.receive_in_step rfl (by decide) rfl)))
  have x0 : Reach wib 4 2 ⟨1, 700, 650, 900, 5, 0⟩ _ := .issued _ r3 rfl
  have x1 := Reach.step _ _ x0 (.notYet _ _ rfl rfl rfl)
  have x2 := Reach.step _ _ x1 (.park _ rfl)
  have x3 := Reach.step _ _ x2 (.link _ _ rfl
    (.receive _ _ 900 (by simp [startCmd]) (recv (Pipeline.receive_in_step rfl (by decide) rfl))) rfl)
  have x4 := Reach.step _ _ x3 (.pass _ 0 900 rfl rfl)
  have x5 := Reach.step _ _ x4 (.pass _ 1 900 rfl rfl)
  have x6 := Reach.step _ _ x5 (.pass _ 2 900 rfl rfl)
  refine ⟨_, _, _, x6, ?_, ?_, rfl, rfl, rfl, rfl, rfl, _, x3, rfl, rfl⟩
  · simp [AllStored, startCmd, Session.St.init]
  · simp [Steady, wib, runLog, startCmd, Session.St.init]

end Verif.Retry
