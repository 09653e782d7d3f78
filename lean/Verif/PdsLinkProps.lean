import Verif.PdsLinkModel
import Verif.SessionProps
/- Property C93: fragments of links whose buffer is searched by bisection, over any number of runs. -/
namespace Verif.PdsLink
open Verif.Ring Verif.Registry Verif.DataReq Verif.Search Verif.Session

/-! ### Specification vocabulary -/

/-- Timestamps of the payloads of a run that the buffer took, in order. -/
def storedLog (log : List Arrival) (r : Nat) : List Nat :=
  (log.filter (fun a => a.run = r ∧ a.stored = true)).map (·.ts)

/-- Every payload begins after the last frame of the payloads before it. -/
def Forward (tick nf : Nat) (ts : List Nat) : Prop := ts.Pairwise (fun a b => a + (nf - 1) * tick < b)

/-! ### Basic facts -/

theorem storedLog_append (log : List Arrival) (a : Arrival) (r : Nat) :
    storedLog (log ++ [a]) r = storedLog log r ++ (if a.run = r ∧ a.stored = true then [a.ts] else []) := by
  by_cases h : a.run = r ∧ a.stored = true <;> simp [storedLog, List.filter_append, h]

theorem increasing_forward (c : Cfg) (ht : 0 < c.tick) {ts : List Nat} (h1 : Forward c.tick c.nf ts) :
    Increasing c.T ts := by
  induction ts with
  | nil => simp [Increasing, allFrames]
  | cons a rest ih =>
    rw [Forward, List.pairwise_cons] at h1
    have ih := ih h1.2
    simp only [Increasing, allFrames, List.flatMap_cons] at ih ⊢
    rw [List.pairwise_append]
    refine ⟨?_, ih, ?_⟩
    · rw [List.pairwise_map]
      refine List.pairwise_lt_range.imp ?_
      intro i j hij
      have : i * c.tick < j * c.tick := Nat.mul_lt_mul_of_pos_right hij ht
      simp only [frameTs, Cfg.T]; omega
    · intro f hf g hg
      rw [List.mem_map] at hf
      obtain ⟨i, hi, rfl⟩ := hf
      obtain ⟨hg1, hg2⟩ := (mem_allFrames c.T rest g).1 hg
      have h3 := h1.1 _ hg1
      have hi' : i < c.nf := by simpa [Cfg.T] using hi
      have : i * c.tick ≤ (c.nf - 1) * c.tick := Nat.mul_le_mul_right _ (by omega)
      simp only [frameTs, Cfg.T]
      have := Nat.zero_le (g.2 * c.tick)
      omega

/-- What the type of the link is: bisection, at least one frame per payload, a buffer of representable size. -/
structure Kind (c : Cfg) (n : Nat) : Prop where
  tick : 0 < c.tick
  nf : 0 < c.nf
  look : c.look = .binary
  size : 2 ≤ n
  small : n < 2147483648

/-- The answer in a state whose buffer holds the last part `l` of the payloads `ts`. -/
theorem answer_eval {c : Cfg} {n : Nat} (hc : Kind c n) {s : St} {ts l : List Nat} (hrep : Repr s.p.q l)
    (hsize : s.p.q.size = n) (hsuf : l <:+ ts) (hfw : Forward c.tick c.nf ts)
    (dr : Request) :
    ∃ r, answer c s dr = .ok r ∧
      r.code = classify (bounds c.T l) (decide (s.phase = .running)) dr.wBegin dr.wEnd ∧
      (r.fragment = none ↔ r.code = .notYet) ∧
      ∀ fr, r.fragment = some fr →
        fr.header = { createHeader c.geo c.ft dr with dataNotFound := decide (r.code ≠ .found) } ∧
        (r.code ≠ .found → fr.frames = []) ∧
        (r.code = .found → ∀ future, Forward c.tick c.nf (ts ++ future) →
          (∀ f, f ∈ fr.frames ↔ InWindow c.tick c.nf (ts ++ future) dr.wBegin dr.wEnd f) ∧
          fr.frames.Pairwise (fun f g => f.1 + f.2 * c.tick < g.1 + g.2 * c.tick)) := by
  obtain ⟨pre, hpre⟩ := hsuf
  have hfl : Forward c.tick c.nf l := by
    rw [← hpre] at hfw; exact (List.pairwise_append.1 hfw).2.1
  have hwl := wellFormed_T c hc.nf l
  have hil := increasing_forward c hc.tick hfl
  have hk : LookupOk c.T c.look l (hasErrorNamed s.p.ck.reg "MISSING_FRAMES") := by
    rw [hc.look]; trivial
  have hsz : s.p.q.size < 2147483648 := by rw [hsize]; exact hc.small
  obtain ⟨r, e, hcode, -, h1, h2⟩ := classification c.T c.look c.geo c.ft s.p.q l hrep hsz hwl hil
    (hasErrorNamed s.p.ck.reg "MISSING_FRAMES") (decide (s.phase = .running)) hk ⟨0, 0, 0, 0, 0, 0⟩ dr
    (.inl hc.look)
  refine ⟨r, e, hcode, h1, fun fr hfr => ⟨(h2 fr hfr).1, (h2 fr hfr).2, fun hf future hfu => ?_⟩⟩
  rw [hf] at hcode
  cases hl : l with
  | nil => subst hl; simp [bounds, classify] at hcode
  | cons a rest =>
    have h0 : l[0]? = some a := by rw [hl]; rfl
    have hh : l.head? = some a := by rw [hl]; rfl
    obtain ⟨z, hz⟩ : ∃ z, l.getLast? = some z := by
      rw [hl]; exact ⟨_, List.getLast?_eq_some_getLast (by simp)⟩
    simp only [bounds, hh, hz, classify] at hcode
    have g1 : c.T.ts a ≤ dr.wBegin := by
      by_cases c1 : dr.wBegin < c.T.ts a
      · simp [c1] at hcode
      · omega
    have g2 : dr.wEnd ≤ c.T.ts z := by
      by_cases c2 : dr.wEnd ≤ c.T.ts z
      · exact c2
      · have : ¬ dr.wBegin < c.T.ts a := by omega
        by_cases hr : s.phase = .running <;> simp [this, c2, hr] at hcode
    have ev := found_eval c.T c.look c.geo c.ft s.p.q l hrep hsz hwl hil
      (hasErrorNamed s.p.ck.reg "MISSING_FRAMES") (decide (s.phase = .running)) hk ⟨0, 0, 0, 0, 0, 0⟩ dr
      a z h0 hz g1 g2 (Or.inl hc.look)
    have e' : dataRequest c.T c.look c.geo c.ft s.p.q (hasErrorNamed s.p.ck.reg "MISSING_FRAMES")
      (decide (s.phase = .running)) ⟨0, 0, 0, 0, 0, 0⟩ dr = .ok r := e
    rw [e'] at ev; injection ev with ev; subst ev
    injection hfr with hfr; subst hfr
    have hext := wanted_extend c.T pre l future (by rw [hpre]; exact wellFormed_T c hc.nf _)
      (by rw [hpre]; exact increasing_forward c hc.tick hfu) a z h0 hz dr.wBegin dr.wEnd g1 g2
    refine ⟨?_, ?_⟩
    · intro f
      rw [← mem_frames, ← hpre]
      simp only
      rw [← hext]
      simp [wanted]
    · exact hil.sublist (List.filter_sublist (p := _) (l := allFrames c.T l))

/-! ### The invariant -/

/-- A sent fragment is right with respect to what the buffer took in its run. -/
structure Right (c : Cfg) (log : List Arrival) (e : Sent) : Prop where
  own : e.frag.frames.Sublist (wanted c.T (storedLog log e.run) e.req.dr.wBegin e.req.dr.wEnd)
  echo : Echoes e.frag.header c.geo c.ft e.req.dr
  err : e.frag.header.dataNotFound = true → e.frag.frames = []
  exact : e.frag.header.dataNotFound = false →
    ∀ future, Forward c.tick c.nf (storedLog log e.run ++ future) →
      (∀ f, f ∈ e.frag.frames ↔
        InWindow c.tick c.nf (storedLog log e.run ++ future) e.req.dr.wBegin e.req.dr.wEnd f) ∧
      e.frag.frames.Pairwise (fun f g => f.1 + f.2 * c.tick < g.1 + g.2 * c.tick)

structure Inv (c : Cfg) (n : Nat) (s : St) (l : List Nat) : Prop where
  repr : Repr s.p.q l
  size : s.p.q.size = n
  idle : s.phase = .idle → l = []
  suf : l <:+ storedLog s.log s.run
  past : ∀ a ∈ s.log, a.run ≤ s.run
  right : ∀ e ∈ s.sent, Right c s.log e

theorem right_append {c : Cfg} {log : List Arrival} {e : Sent} (a : Arrival) (h : Right c log e) :
    Right c (log ++ [a]) e := by
  refine ⟨?_, h.echo, h.err, ?_⟩
  · rw [storedLog_append]
    exact h.own.trans (Session.wanted_sublist _ (List.sublist_append_left _ _) _ _)
  · intro h3 future h4
    rw [storedLog_append, List.append_assoc] at h4 ⊢
    exact h.exact h3 _ h4

theorem receive_cases {s s' : St} {t : Nat} {l : List Nat} (h : Repr s.p.q l) (he : receive s t = .ok s') :
    ∃ p b, s' = { s with p := p, log := s.log ++ [⟨s.run, t, b⟩] } ∧ p.q.size = s.p.q.size ∧
      ((b = true ∧ Repr p.q (l ++ [t])) ∨ (b = false ∧ Repr p.q l)) := by
  by_cases hf : l.length < s.p.q.size - 1
  · obtain ⟨q1, e1, r1, s1, -⟩ := write_ok h t hf
    simp only [receive, e1, Outcome.bind_ok] at he
    injection he with he
    exact ⟨_, _, he.symm, s1, Or.inl ⟨rfl, r1⟩⟩
  · have e1 := write_full h t hf
    simp only [receive, e1, Outcome.bind_ok] at he
    injection he with he
    exact ⟨_, _, he.symm, rfl, Or.inr ⟨rfl, repr_overflow h _⟩⟩

theorem inv_receive {c : Cfg} {n : Nat} {s s' : St} {l : List Nat} {t : Nat}
    (hp : s.phase ≠ .idle) (he : receive s t = .ok s') (h : Inv c n s l) : ∃ l', Inv c n s' l' := by
  obtain ⟨p, b, rfl, hsz, hcase⟩ := receive_cases h.repr he
  have past : ∀ a ∈ s.log ++ [⟨s.run, t, b⟩], a.run ≤ s.run := by
    intro a ha
    rcases List.mem_append.1 ha with ha | ha
    · exact h.past a ha
    · simp at ha; subst ha; exact Nat.le_refl _
  rcases hcase with ⟨rfl, hrep⟩ | ⟨rfl, hrep⟩
  · refine ⟨l ++ [t], hrep, hsz.trans h.size, fun hi => absurd hi hp, ?_, past, fun e hm => right_append _ (h.right e hm)⟩
    show _ <:+ storedLog (s.log ++ [_]) s.run
    rw [storedLog_append, if_pos ⟨rfl, rfl⟩]
    obtain ⟨u, hu⟩ := h.suf
    exact ⟨u, by rw [← hu, List.append_assoc]⟩
  · refine ⟨l, hrep, hsz.trans h.size, fun hi => absurd hi hp, ?_, past, fun e hm => right_append _ (h.right e hm)⟩
    show _ <:+ storedLog (s.log ++ [_]) s.run
    rw [storedLog_append, if_neg (by simp), List.append_nil]
    exact h.suf

theorem right_reply {c : Cfg} {n : Nat} (hc : Kind c n) {s : St} {l : List Nat} (h : Inv c n s l)
    {x : Issued} {r : Result Nat} {fr : Fragment Nat} (he : answer c s x.dr = .ok r)
    (hf : r.fragment = some fr) : Right c s.log ⟨x, s.run, fr⟩ := by
  obtain ⟨-, h14⟩ := C14_fragment_echoes_request c.T c.look c.geo c.ft s.p.q _ _ _ x.dr r he
  obtain ⟨k1, -, k3⟩ := h14 fr hf
  refine ⟨(answer_mem h.repr hc.nf (by rw [h.size]; have := hc.small; simp only [endIdx]; omega) he hf).trans
    (Session.wanted_sublist _ h.suf.sublist _ _), k1, k3, ?_⟩
  intro h3 future h4
  obtain ⟨r', e', hcode, -, hfr⟩ := answer_eval hc h.repr h.size h.suf (List.pairwise_append.1 h4).1 x.dr
  rw [he] at e'; injection e' with e'; subst e'
  obtain ⟨g1, -, g3⟩ := hfr fr hf
  refine g3 ?_ future h4
  rw [g1] at h3; simpa using h3

theorem right_giveUp (c : Cfg) (log : List Arrival) (x : Issued) (run : Nat) :
    Right c log ⟨x, run, createEmpty Nat c.geo c.ft x.dr⟩ := by
  refine ⟨by simp [createEmpty], by simp [createEmpty, createHeader, Echoes], fun _ => rfl, ?_⟩
  intro h
  simp [createEmpty] at h

theorem inv_other {c : Cfg} {n : Nat} (hc : Kind c n) {s s' : St} (st : Session.Step c s s') (hlog : s'.log = s.log)
    {l : List Nat} (h : Inv c n s l) : ∃ l', Inv c n s' l' := by
  cases st with
  | start hp =>
    have hl := h.idle hp
    subst hl
    refine ⟨[], h.repr, h.size, fun _ => rfl, List.nil_suffix, ?_, h.right⟩
    intro a ha
    have := h.past a ha
    simp only [startCmd]; omega
  | receive _ t hp he =>
    exfalso
    cases hr : Pipeline.receive (c.tick * c.nf) s.p t with
    | ub w => simp [Session.receive, hr] at he
    | throws w => simp [Session.receive, hr] at he
    | ok r =>
      simp only [Session.receive, hr, Outcome.bind_ok] at he
      injection he with he; subst he
      simp at hlog
  | clean _ limit toPop next hp he =>
    cases hr : Pipeline.clean limit toPop next s.p with
    | ub w => simp [clean, hr] at he
    | throws w => simp [clean, hr] at he
    | ok p =>
      simp only [clean, hr, Outcome.bind_ok] at he
      injection he with he; subst he
      obtain ⟨⟨k, hk⟩, -, hsz⟩ := Pipeline.clean_repr h.repr hr
      refine ⟨l.drop k, hk, hsz.trans h.size, ?_, (List.drop_suffix k l).trans h.suf, h.past, h.right⟩
      intro hi; rcases hp with hp | hp <;> simp [hp] at hi
  | issue dr hp => exact ⟨l, h.repr, h.size, h.idle, h.suf, h.past, h.right⟩
  | reply x r fr hm hp he hf =>
    refine ⟨l, h.repr, h.size, h.idle, h.suf, h.past, ?_⟩
    intro e hm'
    rcases List.mem_cons.1 hm' with rfl | hm'
    · exact right_reply hc h he hf
    · exact h.right e hm'
  | notYet x r hm hp he hf => exact ⟨l, h.repr, h.size, h.idle, h.suf, h.past, h.right⟩
  | park x hm => exact ⟨l, h.repr, h.size, h.idle, h.suf, h.past, h.right⟩
  | reissue x hm hw => exact ⟨l, h.repr, h.size, h.idle, h.suf, h.past, h.right⟩
  | giveUp x hm hw =>
    refine ⟨l, h.repr, h.size, h.idle, h.suf, h.past, ?_⟩
    intro e hm'
    rcases List.mem_cons.1 hm' with rfl | hm'
    · exact right_giveUp c s.log x s.run
    · exact h.right e hm'
  | stopCall hp => exact ⟨l, h.repr, h.size, by simp, h.suf, h.past, h.right⟩
  | waiterExit hp hw => exact ⟨l, h.repr, h.size, h.idle, h.suf, h.past, h.right⟩
  | join hp hw h1 h2 => exact ⟨l, h.repr, h.size, by simp, h.suf, h.past, h.right⟩
  | finish _ hp he =>
    obtain ⟨q', e, hr, hs, ho⟩ := flush_ok h.repr
    simp only [finish, e, Outcome.bind_ok] at he
    injection he with he; subst he
    exact ⟨[], hr, hs.trans h.size, fun _ => rfl, List.nil_suffix, h.past, h.right⟩

theorem inv_reach {c : Cfg} {n : Nat} (hc : Kind c n) {s : St} (h : Reach c n s) : ∃ l, Inv c n s l := by
  induction h with
  | init =>
    exact ⟨[], repr_init n hc.size, rfl, fun _ => rfl, List.nil_suffix, by simp [St.init], by simp [St.init]⟩
  | step s s' _ st ih =>
    obtain ⟨l, hl⟩ := ih
    cases st with
    | receive t hp he => exact inv_receive hp he hl
    | other st hlog => exact inv_other hc st hlog hl

/-! ### A concrete link (DAPHNE: 12 frames, 16 ticks apart) and concrete histories -/

def daphne : Cfg := ⟨16, 12, .binary, ⟨2, 1, 7⟩, 3, false⟩

theorem daphne_kind : Kind daphne 4 := ⟨by decide, by decide, rfl, by decide, by decide⟩

theorem recv {c : Cfg} {s : St} {t : Nat} {q : Verif.Ring.Ring Nat} {b : Bool} (hp : s.phase ≠ .idle)
    (h : s.p.q.write t = .ok (q, b)) :
    Step c s { s with p := ⟨{ s.p.ck with prev := t, last := t }, q⟩, log := s.log ++ [⟨s.run, t, b⟩] } :=
  .receive _ _ t hp (by simp [receive, h])

/-- One run with a hole in the data: 1000, 1192, 5000 arrive, 5192 is refused by the full buffer, a cleanup removes
two, 5384 arrives; the window [4990, 5384) is requested. -/
theorem demo_run : ∃ s, Reach daphne 4 s ∧ s.run = 1 ∧ storedLog s.log 1 = [1000, 1192, 5000, 5384] ∧
    runLog s.log 1 = [1000, 1192, 5000, 5192, 5384] ∧ s.p.ck.reg = [] ∧ s.phase = .running ∧
    s.p.q.visit 4 s.p.q.begin = .ok ([1192, 5000, 5384], endIdx) ∧
    ∃ e ∈ s.sent, e.run = 1 ∧ e.req.dr = ⟨1, 5000, 4990, 5384, 5, 0⟩ ∧
      e.frag.header.dataNotFound = false ∧ e.frag.frames = (List.range 12).map (fun i => (5000, i)) := by
  have r0 : Reach daphne 4 _ := .init
  have r1 := Reach.step _ _ r0 (.other _ _ (.start _ rfl) rfl)
  have r2 := Reach.step _ _ r1 (recv (t := 1000) (by simp [startCmd]) rfl)
  have r3 := Reach.step _ _ r2 (recv (t := 1192) (by simp [startCmd]) rfl)
  have r4 := Reach.step _ _ r3 (recv (t := 5000) (by simp [startCmd]) rfl)
  have r5 := Reach.step _ _ r4 (recv (t := 5192) (by simp [startCmd]) rfl)
  have r6 := Reach.step _ _ r5 (.other _ _ (.clean _ _ 2 1 18446744073709551615 (Or.inl rfl) rfl) rfl)
  have r7 := Reach.step _ _ r6 (recv (t := 5384) (by simp [startCmd]) rfl)
  have r8 := Reach.step _ _ r7 (.other _ _ (.issue _ ⟨1, 5000, 4990, 5384, 5, 0⟩ (Or.inl rfl)) rfl)
  have r9 := Reach.step _ _ r8 (.other _ _ (.reply _ ⟨⟨1, 5000, 4990, 5384, 5, 0⟩, 1⟩ _ _
    (by simp [startCmd, St.init]) (Or.inl rfl) rfl rfl) rfl)
  exact ⟨_, r9, rfl, rfl, rfl, rfl, rfl, rfl, _, List.mem_cons_self, rfl, rfl, rfl, rfl⟩

/-! ### Property C93 -/

/-- **C93 (exactness)** Take any history of runs, arrivals, cleanups, requests, retries and stops of a bisected
link. If the payloads stored in a run went forward in time, with gaps of any length and however many payloads were
refused by a full buffer, then a fragment sent in it without the error bit carries exactly the frames of the
requested window among all payloads stored in that run, whether cleaned away by now or arriving after the fragment
was sent, in time order. -/
theorem C93_fragment_exact (c : Cfg) (n : Nat) (hc : Kind c n) (s : St) (h : Reach c n s)
    (e : Sent) (he : e ∈ s.sent)
    (hfw : Forward c.tick c.nf (storedLog s.log e.run)) (hok : e.frag.header.dataNotFound = false) :
    (∀ f, f ∈ e.frag.frames ↔
      InWindow c.tick c.nf (storedLog s.log e.run) e.req.dr.wBegin e.req.dr.wEnd f) ∧
    e.frag.frames.Pairwise (fun f g => f.1 + f.2 * c.tick < g.1 + g.2 * c.tick) := by
  obtain ⟨l, inv⟩ := inv_reach hc h
  have := (inv.right e he).exact hok [] (by rw [List.append_nil]; exact hfw)
  rwa [List.append_nil] at this

example : ∃ s, Reach daphne 4 s ∧ Forward daphne.tick daphne.nf (storedLog s.log 1) ∧
    ∃ e ∈ s.sent, e.run = 1 ∧ e.frag.header.dataNotFound = false ∧
      e.frag.frames.length = 12 := by
  obtain ⟨s, h, -, hl, -, -, -, -, e, he, h1, h2, h3, h4⟩ := demo_run
  refine ⟨s, h, ?_, e, he, h1, h3, by rw [h4]; rfl⟩
  rw [hl]; simp [Forward, daphne]

/-- **C93 (availability)** The buffer holds the most recent part of the payloads stored in the run. Every request
is evaluated without undefined behaviour; one whose window begins no earlier than the oldest and ends no later than
the newest stored payload is answered at once, without error bit, with exactly the frames of its window. -/
theorem C93_available (c : Cfg) (n : Nat) (hc : Kind c n) (s : St) (h : Reach c n s)
    (hfw : Forward c.tick c.nf (storedLog s.log s.run)) :
    ∃ l, Repr s.p.q l ∧ l <:+ storedLog s.log s.run ∧
      (∀ dr : Request, ∃ r, answer c s dr = .ok r) ∧
      ∀ (dr : Request) (a z : Nat), l.head? = some a → l.getLast? = some z → a ≤ dr.wBegin → dr.wEnd ≤ z →
        ∃ r fr, answer c s dr = .ok r ∧ r.fragment = some fr ∧ fr.header.dataNotFound = false ∧
          ∀ f, f ∈ fr.frames ↔
            InWindow c.tick c.nf (storedLog s.log s.run) dr.wBegin dr.wEnd f := by
  obtain ⟨l, inv⟩ := inv_reach hc h
  refine ⟨l, inv.repr, inv.suf, ?_, ?_⟩
  · intro dr
    obtain ⟨r, e, -⟩ := answer_eval hc inv.repr inv.size inv.suf hfw dr
    exact ⟨r, e⟩
  intro dr a z ha hz h1 h3
  obtain ⟨r, e, hcode, hnone, hfr⟩ := answer_eval hc inv.repr inv.size inv.suf hfw dr
  have hcode' : r.code = .found := by
    rw [hcode]
    have h1' : ¬ dr.wBegin < c.T.ts a := by simp [Cfg.T]; exact h1
    have h3' : dr.wEnd ≤ c.T.ts z := h3
    simp [classify, bounds, ha, hz, h1', h3']
  cases hx : r.fragment with
  | none => rw [hnone.1 hx] at hcode'; cases hcode'
  | some fr =>
    obtain ⟨g1, -, g3⟩ := hfr fr hx
    refine ⟨r, fr, e, hx, by rw [g1]; simp [hcode'], ?_⟩
    have := (g3 hcode' [] (by rw [List.append_nil]; exact hfw)).1
    rwa [List.append_nil] at this

example : ∃ s, Reach daphne 4 s ∧ Forward daphne.tick daphne.nf (storedLog s.log s.run) ∧
    s.p.q.visit 4 s.p.q.begin = .ok ([1192, 5000, 5384], endIdx) := by
  obtain ⟨s, h, hr, hl, -, -, -, hv, -⟩ := demo_run
  refine ⟨s, h, ?_, hv⟩
  rw [hr, hl]; simp [Forward, daphne]

/-- **C93 (always)** With no assumption on the data: every frame of every fragment lies in the requested window
and belongs to a payload the buffer took in the run in which the fragment was sent, in that order and never
twice; every fragment names its request and the link; a fragment with the
error bit carries no frames. -/
theorem C93_own_data (c : Cfg) (n : Nat) (hc : Kind c n) (s : St) (h : Reach c n s) (e : Sent) (he : e ∈ s.sent) :
    (∀ f ∈ e.frag.frames, (∃ a ∈ s.log, a.run = e.run ∧ a.stored = true ∧ a.ts = f.1) ∧ f.2 < c.nf ∧
      e.req.dr.wBegin ≤ f.1 + f.2 * c.tick ∧ f.1 + f.2 * c.tick < e.req.dr.wEnd) ∧
    e.frag.frames.Sublist
      ((storedLog s.log e.run).flatMap (fun t => (List.range c.nf).map (fun i => (t, i)))) ∧
    Echoes e.frag.header c.geo c.ft e.req.dr ∧
    (e.frag.header.dataNotFound = true → e.frag.frames = []) := by
  obtain ⟨l, inv⟩ := inv_reach hc h
  have r := inv.right e he
  refine ⟨fun f hf => ?_, r.own.trans List.filter_sublist, r.echo, r.err⟩
  have := r.own.subset hf
  obtain ⟨h1, hw⟩ := (mem_frames c _ _ _ f).1 (by simpa [wanted, and_assoc] using this)
  simp only [storedLog, List.mem_map, List.mem_filter, decide_eq_true_eq] at h1
  obtain ⟨a, ⟨h1, h2, h3⟩, h4⟩ := h1
  exact ⟨⟨a, h1, h2, h3, h4⟩, hw⟩

/-- **C24 is false of these links** whatever the buffer does: the refused payload 5192 is known to be missing by
nobody, and a request for [5192, 5384), answered from the stored part, has neither error bit nor frames. -/
theorem C24_photon_counterexample :
    ∃ s, Reach daphne 4 s ∧ s.p.ck.reg = [] ∧ 5192 ∈ runLog s.log 1 ∧
      s.p.q.visit 4 s.p.q.begin = .ok ([1192, 5000, 5384], endIdx) ∧
      ∃ r fr, answer daphne s ⟨2, 5192, 5192, 5384, 5, 0⟩ = .ok r ∧ r.fragment = some fr ∧
        fr.header.dataNotFound = false ∧ fr.frames = [] := by
  have r0 : Reach daphne 4 _ := .init
  have r1 := Reach.step _ _ r0 (.other _ _ (.start _ rfl) rfl)
  have r2 := Reach.step _ _ r1 (recv (t := 1000) (by simp [startCmd]) rfl)
  have r3 := Reach.step _ _ r2 (recv (t := 1192) (by simp [startCmd]) rfl)
  have r4 := Reach.step _ _ r3 (recv (t := 5000) (by simp [startCmd]) rfl)
  have r5 := Reach.step _ _ r4 (recv (t := 5192) (by simp [startCmd]) rfl)
  have r6 := Reach.step _ _ r5 (.other _ _ (.clean _ _ 2 1 18446744073709551615 (Or.inl rfl) rfl) rfl)
  have r7 := Reach.step _ _ r6 (recv (t := 5384) (by simp [startCmd]) rfl)
  exact ⟨_, r7, rfl, by simp [runLog, startCmd, St.init], rfl, _, _, rfl, rfl, rfl, rfl⟩

end Verif.PdsLink
