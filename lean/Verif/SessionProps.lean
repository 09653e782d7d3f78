import Verif.DataReqWindow
import Verif.SessionModel
import Verif.PipelineProps
import Verif.HistoryProps
/- Properties C70 (end-to-end exactness) and C71 (runs are independent). -/
namespace Verif.Session
open Verif.Ring Verif.Registry Verif.TsCheck Verif.DataReq Verif.Search

/-! ### Specification vocabulary: what was received in a run, and what a window asks for -/

/-- Timestamps received in a run, in order. -/
def runLog (log : List Arrival) (r : Nat) : List Nat := (log.filter (·.run = r)).map (·.ts)

/-- Nothing received in the run was refused by a full buffer. -/
def AllStored (log : List Arrival) (r : Nat) : Prop := ∀ a ∈ log, a.run = r → a.stored = true

/-- Payload timestamps do not overlap, go forward, and stay clear of the end of the 64-bit range. -/
def Steady (step : Nat) (ts : List Nat) : Prop :=
  ts.Pairwise (fun a b => a + step ≤ b) ∧ ∀ t ∈ ts, t + step < 18446744073709551616

/-- The frames of a list of payloads (frame `i` of payload `t` carries time `t + i * tick`) that lie
in the window `[b, e)`. -/
def InWindow (tick nf : Nat) (ts : List Nat) (b e : Nat) (f : Nat × Nat) : Prop :=
  f.1 ∈ ts ∧ f.2 < nf ∧ b ≤ f.1 + f.2 * tick ∧ f.1 + f.2 * tick < e

/-! ### Basic facts -/

theorem runLog_append (log : List Arrival) (a : Arrival) (r : Nat) :
    runLog (log ++ [a]) r = runLog log r ++ (if a.run = r then [a.ts] else []) := by
  by_cases h : a.run = r <;> simp [runLog, List.filter_append, h]

theorem allStored_append {log : List Arrival} {a : Arrival} {r : Nat} (h : AllStored (log ++ [a]) r) :
    AllStored log r := fun x hx => h x (by simp [hx])

theorem steady_prefix {step : Nat} {l m : List Nat} (h : Steady step (l ++ m)) : Steady step l :=
  ⟨(List.pairwise_append.1 h.1).1, fun t ht => h.2 t (by simp [ht])⟩

theorem steady_increasing {step : Nat} (hs : 0 < step) {ts : List Nat} (h : Steady step ts) :
    Pipeline.Increasing64 ts :=
  ⟨h.1.imp (fun h => by omega), fun t ht => by have := h.2 t ht; omega⟩

theorem wellFormed_T (c : Cfg) (hn : 0 < c.nf) (ts : List Nat) : WellFormed c.T ts := by
  intro p _
  exact ⟨hn, fun i _ => rfl⟩

theorem mem_frames (c : Cfg) (ts : List Nat) (b e : Nat) (f : Nat × Nat) :
    f ∈ allFrames c.T ts ∧ b ≤ frameTs c.T f ∧ frameTs c.T f < e ↔
      InWindow c.tick c.nf ts b e f := by
  rw [mem_allFrames]
  simp only [InWindow, frameTs, Cfg.T]
  exact ⟨fun h => ⟨h.1.1, h.1.2, h.2.1, h.2.2⟩, fun h => ⟨⟨h.1, h.2.1⟩, h.2.2.1, h.2.2.2⟩⟩

theorem increasing_T (c : Cfg) (ht : 0 < c.tick) {ts : List Nat} (h : Steady (c.tick * c.nf) ts) :
    Increasing c.T ts := by
  obtain ⟨h1, -⟩ := h
  induction ts with
  | nil => simp [Increasing, allFrames]
  | cons a rest ih =>
    rw [List.pairwise_cons] at h1
    have ih := ih h1.2
    simp only [Increasing, allFrames, List.flatMap_cons] at ih ⊢
    rw [List.pairwise_append]
    refine ⟨?_, ih, ?_⟩
    · rw [List.pairwise_map]
      refine List.pairwise_lt_range.imp ?_
      intro i j hij
      have : i * c.tick < j * c.tick := Nat.mul_lt_mul_of_pos_right hij ht
      simp only [frameTs, Cfg.T]; omega
    · intro f hf g hg
      rw [List.mem_map] at hf
      obtain ⟨i, hi, rfl⟩ := hf
      obtain ⟨hg1, hg2⟩ := (mem_allFrames c.T rest g).1 hg
      have h3 := h1.1 _ hg1
      have hi' : i < c.nf := by simpa [Cfg.T] using hi
      have : i * c.tick < c.tick * c.nf := by
        rw [Nat.mul_comm c.tick]; exact Nat.mul_lt_mul_of_pos_right hi' ht
      simp only [frameTs, Cfg.T]
      have := Nat.zero_le (g.2 * c.tick)
      omega

theorem steady_last {step : Nat} {l : List Nat} (h : Steady step l) (a : Nat) (h0 : l[0]? = some a) :
    a + l.length * step < 18446744073709551616 := by
  have key : ∀ (k b : Nat), l[k]? = some b → a + k * step ≤ b := by
    intro k
    induction k with
    | zero => intro b hb; rw [h0] at hb; injection hb with hb; omega
    | succ k ih =>
      intro b hb
      have hk : k + 1 < l.length := getElem?_lt hb
      have e : l[k]? = some l[k] := List.getElem?_eq_getElem (by omega)
      have h1 := ih _ e
      have h2 := List.pairwise_iff_getElem.1 h.1 k (k + 1) (by omega) hk (by omega)
      rw [List.getElem?_eq_getElem hk] at hb; injection hb with hb
      rw [hb] at h2
      rw [Nat.succ_mul]; omega
  have hl : 0 < l.length := getElem?_lt h0
  have e : l[l.length - 1]? = some l[l.length - 1] := List.getElem?_eq_getElem (by omega)
  have h1 := key _ _ e
  have h2 := h.2 _ (List.getElem_mem (show l.length - 1 < l.length by omega))
  obtain ⟨m, hm⟩ : ∃ m, l.length = m + 1 := ⟨l.length - 1, by omega⟩
  generalize l[l.length - 1] = z at h1 h2
  rw [show l.length - 1 = m by omega] at h1
  rw [hm, Nat.succ_mul]
  omega

/-- What makes the lookup of a link exact. -/
structure Link (c : Cfg) (n : Nat) : Prop where
  tick : 0 < c.tick
  nf : 0 < c.nf
  step : c.tick * c.nf < 18446744073709551616
  look : c.look = .binary ∨ c.look = .fixed c.nf
  size : 2 ≤ n
  small : n < 2147483648

theorem lookupOk_inv {c : Cfg} {n : Nat} (hc : Link c n) {p : Pipeline.St} {ts l : List Nat}
    (inv : Pipeline.Inv (c.tick * c.nf) n p ts l) (hst : Steady (c.tick * c.nf) l) :
    LookupOk c.T c.look l (hasErrorNamed p.ck.reg "MISSING_FRAMES") := by
  rcases hc.look with h | h
  · rw [h]; trivial
  · rw [h]
    refine ⟨hc.tick, hc.nf, ?_, ?_⟩
    · intro hne k a b ha hb
      by_contra hcon
      obtain ⟨iv, h1, -⟩ := inv.flag k a b ha hb hcon
      have : hasErrorNamed p.ck.reg "MISSING_FRAMES" = true := by
        rw [hasErrorNamed, List.any_eq_true]
        exact ⟨_, h1, by simp⟩
      rw [this] at hne; simp at hne
    · intro a h0
      have := steady_last hst a h0
      rw [Nat.mul_assoc]; exact this

theorem steady_suffix {step : Nat} {l m : List Nat} (h : Steady step m) (hs : l <:+ m) :
    Steady step l := by
  obtain ⟨u, hu⟩ := hs
  rw [← hu] at h
  exact ⟨(List.pairwise_append.1 h.1).2.1, fun t ht => h.2 t (by simp [ht])⟩

/-- The answer in a state whose buffer holds a suffix `l` of the payloads `ts` received so far, for every window. -/
theorem answer_any {c : Cfg} {n : Nat} (hc : Link c n) {s : St} {ts l : List Nat}
    (inv : Pipeline.Inv (c.tick * c.nf) n s.p ts l) (hst : Steady (c.tick * c.nf) ts)
    (dr : Request) :
    ∃ r, answer c s dr = .ok r ∧
      ((dr.wBegin ≤ dr.wEnd ∨ ∃ z, l.getLast? = some z ∧ dr.wBegin ≤ z) →
        r.code = classify (bounds c.T l) (decide (s.phase = .running)) dr.wBegin dr.wEnd) ∧
      (r.fragment = none ↔ r.code = .notYet) ∧
      ∀ fr, r.fragment = some fr →
        fr.header = { createHeader c.geo c.ft dr with dataNotFound := decide (r.code ≠ .found) } ∧
        (r.code ≠ .found → fr.frames = []) ∧
        (r.code = .found → ∀ future, Steady (c.tick * c.nf) (ts ++ future) →
          (∀ f, f ∈ fr.frames ↔ InWindow c.tick c.nf (ts ++ future) dr.wBegin dr.wEnd f) ∧
          fr.frames.Pairwise (fun f g => f.1 + f.2 * c.tick < g.1 + g.2 * c.tick)) := by
  have hsl := steady_suffix hst inv.suf
  have hwl := wellFormed_T c hc.nf l
  have hil := increasing_T c hc.tick hsl
  have hk := lookupOk_inv hc inv hsl
  have hsz : s.p.q.size < 2147483648 := by rw [inv.size]; exact hc.small
  obtain ⟨r, e, hcode, h1, h2⟩ := eval_every c.T c.look c.geo c.ft s.p.q l inv.repr hsz hwl hil
    (hasErrorNamed s.p.ck.reg "MISSING_FRAMES") (decide (s.phase = .running)) hk ⟨0, 0, 0, 0, 0, 0⟩ dr
  refine ⟨r, e, fun hx => hcode ?_, h1, fun fr hfr => ⟨(h2 fr hfr).1, (h2 fr hfr).2.1, fun hf future hfu => ?_⟩⟩
  · rcases hx with hx | ⟨z, hz, hx⟩
    · exact .inl hx
    · exact .inr (not_late hk hz hx)
  obtain ⟨pre, hpre⟩ := inv.suf
  obtain ⟨hfs, a, z, h0, hz, g1, g2⟩ := (h2 fr hfr).2.2 hf
  have hext := wanted_extend c.T pre l future (by rw [hpre]; exact wellFormed_T c hc.nf _)
    (by rw [hpre]; exact increasing_T c hc.tick hfu) a z h0 hz dr.wBegin dr.wEnd g1 g2
  rw [hfs]
  refine ⟨?_, ?_⟩
  · intro f
    rw [← mem_frames, ← hpre, ← hext]
    simp [wanted]
  · exact hil.sublist (List.filter_sublist (p := _) (l := allFrames c.T l))

/-- `answer_any` for windows that do not end before they begin. -/
theorem answer_eval {c : Cfg} {n : Nat} (hc : Link c n) {s : St} {ts l : List Nat}
    (inv : Pipeline.Inv (c.tick * c.nf) n s.p ts l) (hst : Steady (c.tick * c.nf) ts)
    (dr : Request) (hwin : dr.wBegin ≤ dr.wEnd) :
    ∃ r, answer c s dr = .ok r ∧
      r.code = classify (bounds c.T l) (decide (s.phase = .running)) dr.wBegin dr.wEnd ∧
      (r.fragment = none ↔ r.code = .notYet) ∧
      ∀ fr, r.fragment = some fr →
        fr.header = { createHeader c.geo c.ft dr with dataNotFound := decide (r.code ≠ .found) } ∧
        (r.code ≠ .found → fr.frames = []) ∧
        (r.code = .found → ∀ future, Steady (c.tick * c.nf) (ts ++ future) →
          (∀ f, f ∈ fr.frames ↔ InWindow c.tick c.nf (ts ++ future) dr.wBegin dr.wEnd f) ∧
          fr.frames.Pairwise (fun f g => f.1 + f.2 * c.tick < g.1 + g.2 * c.tick)) := by
  obtain ⟨r, e, hcode, h⟩ := answer_any hc inv hst dr
  exact ⟨r, e, hcode (.inl hwin), h⟩

/-! ### A fragment carries only stored payloads (no assumption on the timestamps) -/

theorem allFrames_sublist (T : PayloadType Nat) {l m : List Nat} (h : l.Sublist m) :
    (allFrames T l).Sublist (allFrames T m) := by
  induction h with
  | slnil => exact List.Sublist.refl _
  | cons a _ ih =>
    simp only [allFrames, List.flatMap_cons] at ih ⊢
    exact ih.trans (List.sublist_append_right _ _)
  | cons_cons a _ ih =>
    simp only [allFrames, List.flatMap_cons] at ih ⊢
    exact List.Sublist.append (List.Sublist.refl _) ih

theorem wanted_sublist (T : PayloadType Nat) {l m : List Nat} (h : l.Sublist m) (b e : Nat) :
    (wanted T l b e).Sublist (wanted T m b e) := (allFrames_sublist T h).filter _

/-- The extraction loop takes frames of the window, in storage order, each once. -/
theorem extractSkip_sublist (T : PayloadType Nat) (b e : Nat) : ∀ l : List Nat, WellFormed T l →
    (extractSkip T b e l).Sublist (wanted T l b e)
  | [], _ => List.Sublist.refl _
  | p :: l, hw => by
    have ih := extractSkip_sublist T b e l (fun x hx => hw x (by simp [hx]))
    simp only [extractSkip, wanted, allFrames, List.flatMap_cons, List.filter_append]
    split
    · rw [pieces_eq T b e p (hw p (by simp))]
      exact List.Sublist.append (List.Sublist.refl _) ih
    · exact List.nil_sublist _

theorem extract_sublist {T : PayloadType Nat} {q : Verif.Ring.Ring Nat} {l : List Nat} (h : Repr q l)
    (hs : q.size ≤ endIdx) (hw : WellFormed T l) (b e it : Nat) (fs : List (Nat × Nat))
    (he : extract T q b e (q.size + 1) it = .ok fs) : fs.Sublist (wanted T l b e) := by
  have he' := he
  simp only [extract] at he'
  split at he'
  · rename_i hg
    cases hd : q.deref it with
    | ub w => simp [hd] at he'
    | throws w => simp [hd] at he'
    | ok p =>
      have hlt : it < q.size := by
        simp only [Ring.deref, Ring.load] at hd
        split at hd
        · assumption
        · simp at hd
      obtain ⟨k, hk, rfl⟩ := (h.occupied hs it hlt).1 hg
      have hp : slotIdx q.size q.rd k = pos q l k := by simp [pos, hk]
      rw [hp] at he
      rcases extract_list T h hs b e (q.size + 1) k (by have := h.len; omega) with e1 | e1
      · rw [e1] at he; injection he with he; subst he
        exact (extractSkip_sublist T b e _ (fun x hx => hw x (List.mem_of_mem_drop hx))).trans
          (wanted_sublist T (List.drop_sublist k l) b e)
      · omega
  · injection he' with he'; subst he'; exact List.nil_sublist _

theorem answer_mem {c : Cfg} {s : St} {l : List Nat} (h : Repr s.p.q l) (hn : 0 < c.nf)
    (hs : s.p.q.size ≤ endIdx) {dr : Request} {r : Result Nat} {fr : Fragment Nat} (he : answer c s dr = .ok r) (hf : r.fragment = some fr) :
    fr.frames.Sublist (wanted c.T l dr.wBegin dr.wEnd) := by
  unfold answer dataRequest at he
  dsimp only at he
  split at he
  · cases h1 : s.p.q.derefPtr s.p.q.front with
    | ub w => simp [h1] at he
    | throws w => simp [h1] at he
    | ok a =>
    cases h2 : s.p.q.derefPtr s.p.q.back with
    | ub w => simp [h1, h2] at he
    | throws w => simp [h1, h2] at he
    | ok z =>
    simp only [h1, h2, Outcome.bind_ok] at he
    split at he
    · generalize hasErrorNamed s.p.ck.reg "MISSING_FRAMES" = hb at he
      cases h3 : lookup c.T c.look s.p.q hb dr.wBegin with
      | ub w => simp [h3] at he
      | throws w => simp [h3] at he
      | ok it =>
      simp only [h3, Outcome.bind_ok] at he
      split at he
      · split at he <;> (injection he with he; subst he; simp at hf)
        subst hf; simp
      · cases h4 : extract c.T s.p.q dr.wBegin dr.wEnd (s.p.q.size + 1) it with
        | ub w => simp [h4] at he
        | throws w => simp [h4] at he
        | ok fs =>
        simp only [h4, Outcome.bind_ok] at he
        injection he with he; subst he
        injection hf with hf; subst hf
        exact extract_sublist h hs (wellFormed_T c hn l) _ _ _ _ h4
    · split at he
      · injection he with he; subst he; injection hf with hf; subst hf; simp
      · split at he
        · split at he <;> (injection he with he; subst he; simp at hf)
          subst hf; simp
        · injection he with he; subst he; injection hf with hf; subst hf; simp
  · injection he with he; subst he; injection hf with hf; subst hf; simp

/-! ### The invariant -/

/-- A sent fragment is right with respect to what its run received. -/
structure Right (c : Cfg) (log : List Arrival) (e : Sent) : Prop where
  own : e.frag.frames.Sublist (wanted c.T (runLog log e.run) e.req.dr.wBegin e.req.dr.wEnd)
  echo : Echoes e.frag.header c.geo c.ft e.req.dr
  err : e.frag.header.dataNotFound = true → e.frag.frames = []
  exact : AllStored log e.run →
    e.frag.header.dataNotFound = false → ∀ future, Steady (c.tick * c.nf) (runLog log e.run ++ future) →
      (∀ f, f ∈ e.frag.frames ↔
        InWindow c.tick c.nf (runLog log e.run ++ future) e.req.dr.wBegin e.req.dr.wEnd f) ∧
      e.frag.frames.Pairwise (fun f g => f.1 + f.2 * c.tick < g.1 + g.2 * c.tick)

structure Inv (c : Cfg) (n : Nat) (s : St) (l : List Nat) : Prop where
  repr : Repr s.p.q l
  size : s.p.q.size = n
  idle : s.phase = .idle → l = []
  own : l.Sublist (runLog s.log s.run)
  past : ∀ a ∈ s.log, a.run ≤ s.run
  flow : AllStored s.log s.run → Steady (c.tick * c.nf) (runLog s.log s.run) →
    Pipeline.Inv (c.tick * c.nf) n s.p (runLog s.log s.run) l
  right : ∀ e ∈ s.sent, Right c s.log e

theorem right_append {c : Cfg} {log : List Arrival} {e : Sent} (a : Arrival) (h : Right c log e) :
    Right c (log ++ [a]) e := by
  refine ⟨?_, h.echo, h.err, ?_⟩
  · rw [runLog_append]
    exact h.own.trans (wanted_sublist _ (List.sublist_append_left _ _) _ _)
  · intro h2 h3 future h4
    rw [runLog_append, List.append_assoc] at h4 ⊢
    exact h.exact (allStored_append h2) h3 _ h4

/-- A full or not full buffer: the effect of a write. -/
theorem receive_cases {c : Cfg} {s s' : St} {t : Nat} {l : List Nat} (h : Repr s.p.q l)
    (he : receive c s t = .ok s') :
    ∃ p b, Pipeline.receive (c.tick * c.nf) s.p t = .ok (p, b) ∧
      s' = { s with p := p, log := s.log ++ [⟨s.run, t, b⟩] } ∧ p.q.size = s.p.q.size ∧
      ((b = true ∧ Repr p.q (l ++ [t]) ∧ p.q.overflow = s.p.q.overflow) ∨
       (b = false ∧ Repr p.q l)) := by
  cases hr : Pipeline.receive (c.tick * c.nf) s.p t with
  | ub w => simp [receive, hr] at he
  | throws w => simp [receive, hr] at he
  | ok r =>
    obtain ⟨p, b⟩ := r
    simp only [receive, hr, Outcome.bind_ok] at he
    injection he with he
    refine ⟨p, b, rfl, he.symm, ?_⟩
    by_cases hf : l.length < s.p.q.size - 1
    · obtain ⟨q1, e1, r1, s1, -, o1, -⟩ := write_ok h t hf
      simp only [Pipeline.receive, e1, Outcome.bind_ok] at hr
      injection hr with hr
      injection hr with hr1 hr2
      subst hr1; subst hr2
      exact ⟨s1, Or.inl ⟨rfl, r1, o1⟩⟩
    · have e1 := write_full h t hf
      simp only [Pipeline.receive, e1, Outcome.bind_ok] at hr
      injection hr with hr
      injection hr with hr1 hr2
      subst hr1; subst hr2
      exact ⟨rfl, Or.inr ⟨rfl, repr_overflow h _⟩⟩

theorem inv_start {c : Cfg} {n : Nat} {s : St} {l : List Nat} (hp : s.phase = .idle)
    (h : Inv c n s l) : Inv c n (startCmd c s) [] := by
  have hl := h.idle hp
  subst hl
  have hempty : runLog s.log (s.run + 1) = [] := by
    simp only [runLog, List.map_eq_nil_iff, List.filter_eq_nil_iff, decide_eq_true_eq]
    intro a ha
    have := h.past a ha
    omega
  refine ⟨h.repr, h.size, fun _ => rfl, by simp, ?_, ?_, h.right⟩
  · intro a ha
    have := h.past a ha
    simp only [startCmd]; omega
  · intro _ _
    show Pipeline.Inv _ n _ (runLog s.log (s.run + 1)) []
    rw [hempty]
    exact ⟨h.repr, h.size, by simp, List.suffix_refl _, by intro k a b ha; simp at ha⟩

theorem inv_receive {c : Cfg} {n : Nat} (hc : Link c n) {s s' : St} {l : List Nat} {t : Nat}
    (hp : s.phase ≠ .idle) (he : receive c s t = .ok s') (h : Inv c n s l) : ∃ l', Inv c n s' l' := by
  obtain ⟨p, b, hr, rfl, hsz, hcase⟩ := receive_cases h.repr he
  have hlog : runLog (s.log ++ [⟨s.run, t, b⟩]) s.run = runLog s.log s.run ++ [t] := by
    rw [runLog_append]; simp
  rcases hcase with ⟨rfl, hrep, hov⟩ | ⟨rfl, hrep⟩
  · refine ⟨l ++ [t], hrep, hsz.trans h.size, fun hi => absurd hi hp, ?_, ?_, ?_, ?_⟩
    · show List.Sublist _ (runLog (s.log ++ [_]) s.run)
      rw [hlog]
      exact h.own.append (List.Sublist.refl _)
    · intro a ha
      rcases List.mem_append.1 ha with ha | ha
      · exact h.past a ha
      · simp at ha; subst ha; exact Nat.le_refl _
    · intro h1 h2
      show Pipeline.Inv _ n p (runLog (s.log ++ [_]) s.run) _
      rw [hlog]
      have h2' : Steady (c.tick * c.nf) (runLog s.log s.run ++ [t]) := hlog ▸ h2
      refine Pipeline.inv_receive hc.step
        (h.flow (allStored_append h1) (steady_prefix h2')) ?_ hr (by omega)
      exact steady_increasing (Nat.mul_pos hc.tick hc.nf) h2'
    · intro e hm
      exact right_append _ (h.right e hm)
  · refine ⟨l, hrep, hsz.trans h.size, fun hi => absurd hi hp, ?_, ?_, ?_, ?_⟩
    · show List.Sublist _ (runLog (s.log ++ [_]) s.run)
      rw [hlog]
      exact h.own.trans (List.sublist_append_left _ _)
    · intro a ha
      rcases List.mem_append.1 ha with ha | ha
      · exact h.past a ha
      · simp at ha; subst ha; exact Nat.le_refl _
    · intro h1 h2
      have := h1 ⟨s.run, t, false⟩ (by simp) rfl
      simp at this
    · intro e hm
      exact right_append _ (h.right e hm)

theorem inv_clean {c : Cfg} {n : Nat} (hc : Link c n) {s s' : St} {l : List Nat}
    {limit toPop next : Nat} (hp : s.phase = .running ∨ s.phase = .stopping)
    (he : clean s limit toPop next = .ok s') (h : Inv c n s l) : ∃ l', Inv c n s' l' := by
  cases hr : Pipeline.clean limit toPop next s.p with
  | ub w => simp [clean, hr] at he
  | throws w => simp [clean, hr] at he
  | ok p =>
    simp only [clean, hr, Outcome.bind_ok] at he
    injection he with he; subst he
    obtain ⟨⟨k, hk⟩, -, hsz⟩ := Pipeline.clean_repr h.repr hr
    refine ⟨l.drop k, hk, hsz.trans h.size, ?_, ?_, h.past, ?_, h.right⟩
    · intro hi; rcases hp with hp | hp <;> simp [hp] at hi
    · exact (List.drop_sublist k l).trans h.own
    · intro h1 h2
      obtain ⟨k', hk'⟩ := Pipeline.inv_clean (h.flow h1 h2)
        (steady_increasing (Nat.mul_pos hc.tick hc.nf) h2) hr
      have := repr_unique hk'.repr hk
      rw [← this]; exact hk'

theorem inv_finish {c : Cfg} {n : Nat} {s s' : St} {l : List Nat} (he : finish s = .ok s')
    (h : Inv c n s l) : Inv c n s' [] := by
  obtain ⟨q', e, hr, hs, ho⟩ := flush_ok h.repr
  simp only [finish, e, Outcome.bind_ok] at he
  injection he with he; subst he
  refine ⟨hr, hs.trans h.size, fun _ => rfl, by simp, h.past, ?_, h.right⟩
  intro h1 h2
  have := h.flow h1 h2
  exact ⟨hr, hs.trans h.size, this.prev, List.nil_suffix, by intro k a b ha; simp at ha⟩

theorem right_reply {c : Cfg} {n : Nat} (hc : Link c n) {s : St} {l : List Nat} (h : Inv c n s l)
    {x : Issued} {r : Result Nat} {fr : Fragment Nat} (he : answer c s x.dr = .ok r)
    (hf : r.fragment = some fr) : Right c s.log ⟨x, s.run, fr⟩ := by
  obtain ⟨-, h14⟩ := C14_fragment_echoes_request c.T c.look c.geo c.ft s.p.q _ _ _ x.dr r he
  obtain ⟨k1, -, k3⟩ := h14 fr hf
  refine ⟨(answer_mem h.repr hc.nf (by rw [h.size]; have := hc.small; simp only [endIdx]; omega) he hf).trans (wanted_sublist _ h.own _ _), k1, k3, ?_⟩
  intro h2 h3 future h4
  obtain ⟨r', e', -, -, hfr⟩ := answer_any hc (h.flow h2 (steady_prefix h4)) (steady_prefix h4)
    x.dr
  rw [he] at e'; injection e' with e'; subst e'
  obtain ⟨g1, -, g3⟩ := hfr fr hf
  refine g3 ?_ future h4
  rw [g1] at h3; simpa using h3

theorem right_giveUp (c : Cfg) (log : List Arrival) (x : Issued) (run : Nat) :
    Right c log ⟨x, run, createEmpty Nat c.geo c.ft x.dr⟩ := by
  refine ⟨by simp [createEmpty], by simp [createEmpty, createHeader, Echoes], fun _ => rfl, ?_⟩
  intro _ h
  simp [createEmpty] at h

theorem inv_step {c : Cfg} {n : Nat} (hc : Link c n) {s s' : St} (st : Step c s s') {l : List Nat}
    (h : Inv c n s l) : ∃ l', Inv c n s' l' := by
  cases st with
  | start hp => exact ⟨_, inv_start hp h⟩
  | receive _ t hp he => exact inv_receive hc hp he h
  | clean _ limit toPop next hp he => exact inv_clean hc hp he h
  | issue dr hp => exact ⟨l, h.repr, h.size, h.idle, h.own, h.past, h.flow, h.right⟩
  | reply x r fr hm hp he hf =>
    refine ⟨l, h.repr, h.size, h.idle, h.own, h.past, h.flow, ?_⟩
    intro e hm'
    rcases List.mem_cons.1 hm' with rfl | hm'
    · exact right_reply hc h he hf
    · exact h.right e hm'
  | notYet x r hm hp he hf => exact ⟨l, h.repr, h.size, h.idle, h.own, h.past, h.flow, h.right⟩
  | park x hm => exact ⟨l, h.repr, h.size, h.idle, h.own, h.past, h.flow, h.right⟩
  | reissue x hm hw => exact ⟨l, h.repr, h.size, h.idle, h.own, h.past, h.flow, h.right⟩
  | giveUp x hm hw =>
    refine ⟨l, h.repr, h.size, h.idle, h.own, h.past, h.flow, ?_⟩
    intro e hm'
    rcases List.mem_cons.1 hm' with rfl | hm'
    · exact right_giveUp c s.log x s.run
    · exact h.right e hm'
  | stopCall hp => exact ⟨l, h.repr, h.size, by simp, h.own, h.past, h.flow, h.right⟩
  | waiterExit hp hw => exact ⟨l, h.repr, h.size, h.idle, h.own, h.past, h.flow, h.right⟩
  | join hp hw h1 h2 => exact ⟨l, h.repr, h.size, by simp, h.own, h.past, h.flow, h.right⟩
  | finish _ hp he => exact ⟨_, inv_finish he h⟩

theorem inv_reach {c : Cfg} {n : Nat} (hc : Link c n) {s : St} (h : Reach c n s) :
    ∃ l, Inv c n s l := by
  induction h with
  | init =>
    refine ⟨[], repr_init n hc.size, rfl, fun _ => rfl, by simp, by simp [St.init], ?_, by simp [St.init]⟩
    intro _ _
    exact ⟨repr_init n hc.size, rfl, by simp [St.init, runLog], List.nil_suffix,
      by intro k a b ha; simp at ha⟩
  | step s s' _ st ih => obtain ⟨l, hl⟩ := ih; exact inv_step hc st hl

/-! ### A concrete link (WIB: 12 frames, 25 ticks apart) and concrete histories -/

def wib : Cfg := ⟨25, 12, .fixed 12, ⟨3, 1, 7⟩, 1, true⟩

theorem wib_link : Link wib 4 := ⟨by decide, by decide, by decide, Or.inr rfl, by decide, by decide⟩

theorem recv {c : Cfg} {s : St} {t : Nat} {p : Pipeline.St} {b : Bool}
    (h : Pipeline.receive (c.tick * c.nf) s.p t = .ok (p, b)) :
    receive c s t = .ok { s with p := p, log := s.log ++ [⟨s.run, t, b⟩] } := by
  simp [receive, h]

/-- One run: 300, 600, 900 arrive, a cleanup removes 300, the window [650, 850) is requested and
answered, 1200 arrives afterwards. -/
theorem demo_run : ∃ s, Reach wib 4 s ∧ s.phase = .running ∧ s.run = 1 ∧ s.lateParked = false ∧
    runLog s.log 1 = [300, 600, 900, 1200] ∧ (∀ a ∈ s.log, a.stored = true) ∧
    ∃ e ∈ s.sent, e.run = 1 ∧ e.req.dr = ⟨1, 700, 650, 850, 5, 0⟩ ∧
      e.frag.header.dataNotFound = false ∧
      e.frag.frames = [(600, 2), (600, 3), (600, 4), (600, 5), (600, 6), (600, 7), (600, 8), (600, 9)] := by
  have r0 : Reach wib 4 _ := .init
  have r1 := Reach.step _ _ r0 (.start _ rfl)
  have r2 := Reach.step _ _ r1 (.receive _ _ 300 (by simp [startCmd]) (recv (Pipeline.receive_in_step rfl (by decide) rfl)))
  have r3 := Reach.step _ _ r2 (.receive _ _ 600 (by simp [startCmd]) (recv (Pipeline.receive_in_step rfl (by decide) rfl)))
  have r4 := Reach.step _ _ r3 (.receive _ _ 900 (by simp [startCmd]) (recv (Pipeline.receive_in_step rfl (by decide) rfl)))
  have r5 := Reach.step _ _ r4 (.clean _ _ 2 1 1000 (Or.inl rfl) rfl)
  have r6 := Reach.step _ _ r5 (.issue _ ⟨1, 700, 650, 850, 5, 0⟩ (Or.inl rfl))
  have r7 := Reach.step _ _ r6 (.reply _ ⟨⟨1, 700, 650, 850, 5, 0⟩, 1⟩ _ _ (by simp [startCmd, St.init]) (Or.inl rfl) rfl rfl)
  have r8 := Reach.step _ _ r7 (.receive _ _ 1200 (by simp [startCmd]) (recv (Pipeline.receive_in_step rfl (by decide) rfl)))
  exact ⟨_, r8, rfl, rfl, rfl, rfl, by simp [startCmd, St.init], _, List.mem_cons_self, rfl, rfl, rfl, rfl⟩

/-- **C70 (partial)** Take any history of runs, arrivals, cleanups, requests with any windows, retries and stops. If a
fragment was sent without the error bit in a run whose payloads went forward in time without
overlap and none of which was refused by a full buffer, then it carries exactly the frames of
the requested window among everything the link received in that run, whether already
cleaned away or arriving after the fragment was sent, in time order (so none twice).
Missing: runs with refused payloads or timestamps going backwards, where the claim is false. -/
theorem C70_fragment_exact_partial (c : Cfg) (n : Nat) (hc : Link c n) (s : St) (h : Reach c n s)
    (e : Sent) (he : e ∈ s.sent)
    (hst : AllStored s.log e.run) (hsteady : Steady (c.tick * c.nf) (runLog s.log e.run))
    (hok : e.frag.header.dataNotFound = false) :
    (∀ f, f ∈ e.frag.frames ↔
      InWindow c.tick c.nf (runLog s.log e.run) e.req.dr.wBegin e.req.dr.wEnd f) ∧
    e.frag.frames.Pairwise (fun f g => f.1 + f.2 * c.tick < g.1 + g.2 * c.tick) := by
  obtain ⟨l, inv⟩ := inv_reach hc h
  have := (inv.right e he).exact hst hok [] (by rw [List.append_nil]; exact hsteady)
  rwa [List.append_nil] at this

example : ∃ s, Reach wib 4 s ∧ AllStored s.log 1 ∧ Steady (wib.tick * wib.nf) (runLog s.log 1) ∧
    ∃ e ∈ s.sent, e.run = 1 ∧ e.req.dr.wBegin ≤ e.req.dr.wEnd ∧ e.frag.header.dataNotFound = false ∧
      e.frag.frames.length = 8 := by
  obtain ⟨s, h, -, -, -, hl, ha, e, he, h1, h2, h3, h4⟩ := demo_run
  refine ⟨s, h, fun a ha' _ => ha a ha', ?_, e, he, h1, by rw [h2]; decide, h3, by rw [h4]; rfl⟩
  rw [hl]; simp [Steady, wib]

/-- **C70 is false of the code**: 1200 is refused by the full buffer, nothing is flagged, and a request
for [1500, 1600) is answered without error bit and without a single frame although payload 1500 was
received in time and is still stored. -/
theorem C70_refused_payload_counterexample :
    ∃ s, Reach wib 4 s ∧ Steady (wib.tick * wib.nf) (runLog s.log 1) ∧
      s.p.q.visit 4 s.p.q.begin = .ok ([900, 1500, 1800], endIdx) ∧
      ∃ e ∈ s.sent, e.run = 1 ∧ e.frag.header.dataNotFound = false ∧ e.frag.frames = [] ∧
        InWindow 25 12 (runLog s.log 1) e.req.dr.wBegin e.req.dr.wEnd (1500, 0) := by
  have r0 : Reach wib 4 _ := .init
  have r1 := Reach.step _ _ r0 (.start _ rfl)
  have r2 := Reach.step _ _ r1 (.receive _ _ 300 (by simp [startCmd]) (recv (Pipeline.receive_in_step rfl (by decide) rfl)))
  have r3 := Reach.step _ _ r2 (.receive _ _ 600 (by simp [startCmd]) (recv (Pipeline.receive_in_step rfl (by decide) rfl)))
  have r4 := Reach.step _ _ r3 (.receive _ _ 900 (by simp [startCmd]) (recv (Pipeline.receive_in_step rfl (by decide) rfl)))
  have r5 := Reach.step _ _ r4 (.receive _ _ 1200 (by simp [startCmd]) (recv (Pipeline.receive_in_step rfl (by decide) rfl)))
  have r6 := Reach.step _ _ r5 (.clean _ _ 2 2 18446744073709551615 (Or.inl rfl) rfl)
  have r7 := Reach.step _ _ r6 (.receive _ _ 1500 (by simp [startCmd]) (recv (Pipeline.receive_in_step rfl (by decide) rfl)))
  have r8 := Reach.step _ _ r7 (.receive _ _ 1800 (by simp [startCmd]) (recv (Pipeline.receive_in_step rfl (by decide) rfl)))
  have r9 := Reach.step _ _ r8 (.issue _ ⟨1, 1550, 1500, 1600, 5, 0⟩ (Or.inl rfl))
  have r10 := Reach.step _ _ r9 (.reply _ ⟨⟨1, 1550, 1500, 1600, 5, 0⟩, 1⟩ _ _ (by simp [startCmd, St.init]) (Or.inl rfl) rfl rfl)
  refine ⟨_, r10, ?_, rfl, _, List.mem_cons_self, rfl, rfl, rfl, ?_⟩
  · simp [Steady, wib, runLog, startCmd, St.init]
  · simp [InWindow, runLog, startCmd, St.init]

/-- **C70 (availability)** In such a run, a request is answered at once and without error bit whenever
its window begins no earlier than the oldest and begins and ends no later than the newest payload still
stored, and the stored payloads are the most recent part of those received in the run. -/
theorem C70_available_partial (c : Cfg) (n : Nat) (hc : Link c n) (s : St) (h : Reach c n s)
    (hst : AllStored s.log s.run) (hsteady : Steady (c.tick * c.nf) (runLog s.log s.run)) :
    ∃ l, Repr s.p.q l ∧ l <:+ runLog s.log s.run ∧
      ∀ (dr : Request) (a z : Nat), l.head? = some a → l.getLast? = some z → a ≤ dr.wBegin →
        dr.wBegin ≤ z → dr.wEnd ≤ z →
        ∃ r fr, answer c s dr = .ok r ∧ r.fragment = some fr ∧ fr.header.dataNotFound = false ∧
          ∀ f, f ∈ fr.frames ↔
            InWindow c.tick c.nf (runLog s.log s.run) dr.wBegin dr.wEnd f := by
  obtain ⟨l, inv⟩ := inv_reach hc h
  have pinv := inv.flow hst hsteady
  refine ⟨l, inv.repr, pinv.suf, ?_⟩
  intro dr a z ha hz h1 h2 h3
  obtain ⟨r, e, hcode, hnone, hfr⟩ := answer_any hc pinv hsteady dr
  have hcode' : r.code = .found := by
    rw [hcode (.inr ⟨z, hz, h2⟩)]
    have h1' : ¬ dr.wBegin < c.T.ts a := by simp [Cfg.T]; exact h1
    have h3' : dr.wEnd ≤ c.T.ts z := h3
    simp [classify, bounds, ha, hz, h1', h3']
  cases hx : r.fragment with
  | none => rw [hnone.1 hx] at hcode'; cases hcode'
  | some fr =>
    obtain ⟨g1, -, g3⟩ := hfr fr hx
    refine ⟨r, fr, e, hx, by rw [g1]; simp [hcode'], ?_⟩
    have := (g3 hcode' [] (by rw [List.append_nil]; exact hsteady)).1
    rwa [List.append_nil] at this

example : ∃ s, Reach wib 4 s ∧ AllStored s.log s.run ∧
    Steady (wib.tick * wib.nf) (runLog s.log s.run) ∧ runLog s.log s.run ≠ [] := by
  obtain ⟨s, h, -, h0, -, hl, ha, -⟩ := demo_run
  rw [← h0] at hl
  refine ⟨s, h, fun a ha' _ => ha a ha', ?_, ?_⟩
  · rw [hl]; simp [Steady, wib]
  · rw [hl]; simp

/-- **C70 (error fragments)** With no assumption on the data: every fragment names its request and the
link, and a fragment with the error bit carries no frames. -/
theorem C70_fragment_names_request (c : Cfg) (n : Nat) (hc : Link c n) (s : St) (h : Reach c n s)
    (e : Sent) (he : e ∈ s.sent) :
    Echoes e.frag.header c.geo c.ft e.req.dr ∧
      (e.frag.header.dataNotFound = true → e.frag.frames = []) := by
  obtain ⟨l, inv⟩ := inv_reach hc h
  exact ⟨(inv.right e he).echo, (inv.right e he).err⟩

example : ∃ s, Reach wib 4 s ∧ ∃ e ∈ s.sent, e.req.dr.trigNum = 1 := by
  obtain ⟨s, h, -, -, -, -, -, e, he, -, h2, -⟩ := demo_run
  exact ⟨s, h, e, he, by rw [h2]⟩

/-- **C70 (soundness)** With no assumption on the data, refused payloads and timestamps going backwards
included: whatever a fragment carries lies in the requested window, was received in that
run, appears in the order of reception and never more often than received. A fragment can lack
frames (C70_refused_payload_counterexample) but never carries a wrong one. -/
theorem C70_fragment_sound (c : Cfg) (n : Nat) (hc : Link c n) (s : St) (h : Reach c n s)
    (e : Sent) (he : e ∈ s.sent) :
    (∀ f ∈ e.frag.frames,
      InWindow c.tick c.nf (runLog s.log e.run) e.req.dr.wBegin e.req.dr.wEnd f) ∧
    e.frag.frames.Sublist
      ((runLog s.log e.run).flatMap (fun t => (List.range c.nf).map (fun i => (t, i)))) := by
  obtain ⟨l, inv⟩ := inv_reach hc h
  have hsub := (inv.right e he).own
  refine ⟨fun f hf => (mem_frames c _ _ _ f).1 ?_, hsub.trans List.filter_sublist⟩
  have := hsub.subset hf
  simpa [wanted, and_assoc] using this

example : ∃ s, Reach wib 4 s ∧ ∃ e ∈ s.sent, e.run = 1 ∧ e.frag.frames.length = 8 := by
  obtain ⟨s, h, -, -, -, -, -, e, he, h1, -, -, h4⟩ := demo_run
  exact ⟨s, h, e, he, h1, by rw [h4]; rfl⟩

/-- **C71 (data)** With no assumption on the data: every frame of every fragment belongs to a payload
received in the run in which the fragment was sent. Data of an earlier run never appears. -/
theorem C71_own_run_data (c : Cfg) (n : Nat) (hc : Link c n) (s : St) (h : Reach c n s)
    (e : Sent) (he : e ∈ s.sent) (f : Nat × Nat) (hf : f ∈ e.frag.frames) :
    ∃ a ∈ s.log, a.run = e.run ∧ a.ts = f.1 := by
  obtain ⟨l, inv⟩ := inv_reach hc h
  have := ((mem_frames c _ _ _ f).1 (by
    have := (inv.right e he).own.subset hf
    simpa [wanted, and_assoc] using this)).1
  simp only [runLog, List.mem_map, List.mem_filter, decide_eq_true_eq] at this
  obtain ⟨a, ⟨h1, h2⟩, h3⟩ := this
  exact ⟨a, h1, h2, h3⟩

example : ∃ s, Reach wib 4 s ∧ ∃ e ∈ s.sent, (600, 2) ∈ e.frag.frames := by
  obtain ⟨s, h, -, -, -, -, -, e, he, -, -, -, h4⟩ := demo_run
  exact ⟨s, h, e, he, by rw [h4]; simp⟩

/-! ### Requests and runs -/

structure Inv2 (s : St) : Prop where
  quiet : s.phase = .idle ∨ s.phase = .joined → s.waiterGone = true ∧ s.pool = [] ∧ s.toPark = []
  empty : s.lateParked = false → s.waiterGone = true → s.waiting = []
  cur : s.lateParked = false → ∀ x, x ∈ s.pool ∨ x ∈ s.toPark ∨ x ∈ s.waiting → x.run = s.run
  sent : s.lateParked = false → ∀ e ∈ s.sent, e.req.run = e.run

theorem inv2_step {c : Cfg} {s s' : St} (st : Step c s s') (h : Inv2 s) : Inv2 s' := by
  cases st with
  | start hp =>
    obtain ⟨h1, h2, h3⟩ := h.quiet (Or.inl hp)
    refine ⟨by simp [startCmd], by simp [startCmd], ?_, h.sent⟩
    intro hl x hx
    have := h.empty hl h1
    simp [startCmd, h3, this] at hx
  | receive _ t hp he =>
    cases hr : Pipeline.receive (c.tick * c.nf) s.p t with
    | ub w => simp [receive, hr] at he
    | throws w => simp [receive, hr] at he
    | ok r =>
      simp only [receive, hr, Outcome.bind_ok] at he
      injection he with he; subst he
      exact ⟨h.quiet, h.empty, h.cur, h.sent⟩
  | clean _ limit toPop next hp he =>
    cases hr : Pipeline.clean limit toPop next s.p with
    | ub w => simp [clean, hr] at he
    | throws w => simp [clean, hr] at he
    | ok r =>
      simp only [clean, hr, Outcome.bind_ok] at he
      injection he with he; subst he
      exact ⟨h.quiet, h.empty, h.cur, h.sent⟩
  | issue dr hp =>
    refine ⟨?_, h.empty, ?_, h.sent⟩
    · intro hq; rcases hp with hp | hp <;> simp [hp] at hq
    · intro hl x hx
      simp only [List.mem_cons] at hx
      rcases hx with (rfl | hx) | hx
      · rfl
      · exact h.cur hl x (Or.inl hx)
      · exact h.cur hl x (Or.inr hx)
  | reply x r fr hm hp he hf =>
    refine ⟨?_, h.empty, ?_, ?_⟩
    · intro hq; rcases hp with hp | hp <;> simp [hp] at hq
    · intro hl y hy
      refine h.cur hl y (hy.imp List.mem_of_mem_erase id)
    · intro hl e hm'
      rcases List.mem_cons.1 hm' with rfl | hm'
      · exact h.cur hl x (Or.inl hm)
      · exact h.sent hl e hm'
  | notYet x r hm hp he hf =>
    refine ⟨?_, h.empty, ?_, h.sent⟩
    · intro hq; rcases hp with hp | hp <;> simp [hp] at hq
    · intro hl y hy
      simp only [List.mem_cons] at hy
      rcases hy with hy | (rfl | hy) | hy
      · exact h.cur hl y (Or.inl (List.mem_of_mem_erase hy))
      · exact h.cur hl y (Or.inl hm)
      · exact h.cur hl y (Or.inr (Or.inl hy))
      · exact h.cur hl y (Or.inr (Or.inr hy))
  | park x hm =>
    refine ⟨?_, ?_, ?_, ?_⟩
    · intro hq
      obtain ⟨h1, h2, h3⟩ := h.quiet hq
      rw [h3] at hm; simp at hm
    · intro hl hw
      simp only [Bool.or_eq_false_iff] at hl
      rw [hl.2] at hw; cases hw
    · intro hl y hy
      simp only [Bool.or_eq_false_iff] at hl
      simp only [List.mem_cons] at hy
      rcases hy with hy | hy | rfl | hy
      · exact h.cur hl.1 y (Or.inl hy)
      · exact h.cur hl.1 y (Or.inr (Or.inl (List.mem_of_mem_erase hy)))
      · exact h.cur hl.1 y (Or.inr (Or.inl hm))
      · exact h.cur hl.1 y (Or.inr (Or.inr hy))
    · intro hl
      simp only [Bool.or_eq_false_iff] at hl
      exact h.sent hl.1
  | reissue x hm hw =>
    refine ⟨?_, ?_, ?_, h.sent⟩
    · intro hq
      have := (h.quiet hq).1
      rw [this] at hw; cases hw
    · intro hl hw'; rw [show s.waiterGone = true from hw'] at hw; cases hw
    · intro hl y hy
      simp only [List.mem_cons] at hy
      rcases hy with (rfl | hy) | hy | hy
      · exact h.cur hl y (Or.inr (Or.inr hm))
      · exact h.cur hl y (Or.inl hy)
      · exact h.cur hl y (Or.inr (Or.inl hy))
      · exact h.cur hl y (Or.inr (Or.inr (List.mem_of_mem_erase hy)))
  | giveUp x hm hw =>
    refine ⟨h.quiet, ?_, ?_, ?_⟩
    · intro hl hw'; rw [show s.waiterGone = true from hw'] at hw; cases hw
    · intro hl y hy
      exact h.cur hl y (hy.imp id (Or.imp id List.mem_of_mem_erase))
    · intro hl e hm'
      rcases List.mem_cons.1 hm' with rfl | hm'
      · exact h.cur hl x (Or.inr (Or.inr hm))
      · exact h.sent hl e hm'
  | stopCall hp => exact ⟨by simp, h.empty, h.cur, h.sent⟩
  | waiterExit hp hw =>
    exact ⟨fun hq => by rcases hq with hq | hq <;> simp [hp] at hq, fun _ _ => hw, h.cur, h.sent⟩
  | join hp hw h1 h2 => exact ⟨fun _ => ⟨hw, h1, h2⟩, h.empty, h.cur, h.sent⟩
  | finish _ hp he =>
    cases hr : s.p.q.flush with
    | ub w => simp [finish, hr] at he
    | throws w => simp [finish, hr] at he
    | ok r =>
      simp only [finish, hr, Outcome.bind_ok] at he
      injection he with he; subst he
      exact ⟨fun _ => h.quiet (Or.inr hp), h.empty, h.cur, h.sent⟩

theorem inv2_reach {c : Cfg} {n : Nat} {s : St} (h : Reach c n s) : Inv2 s := by
  induction h with
  | init => refine ⟨?_, ?_, ?_, ?_⟩ <;> simp [St.init]
  | step s s' _ st ih => exact inv2_step st ih

/-- **C71 (requests, partial)** As long as no request was parked after the waiting-list thread had
left, every fragment is sent in the run in which its request was issued. Missing: requests parked
late, where the claim is false. -/
theorem C71_answered_in_own_run_partial (c : Cfg) (n : Nat) (s : St) (h : Reach c n s)
    (hl : s.lateParked = false) (e : Sent) (he : e ∈ s.sent) : e.req.run = e.run :=
  (inv2_reach h).sent hl e he

example : ∃ s, Reach wib 4 s ∧ s.lateParked = false ∧ ∃ e ∈ s.sent, e.run = 1 := by
  obtain ⟨s, h, -, -, hl, -, -, e, he, h1, -⟩ := demo_run
  exact ⟨s, h, hl, e, he, h1⟩

/-- **C71 is false of the code**: a request of run 1 evaluated as "not yet" just before stop is parked
after the waiting-list thread has left, survives the stop, and is answered in run 2, without error
bit, with data of run 2. -/
theorem C71_late_parked_counterexample :
    ∃ s, Reach wib 4 s ∧ ∃ e ∈ s.sent, e.req.run = 1 ∧ e.run = 2 ∧
      e.frag.header.dataNotFound = false ∧ e.frag.frames = [(600, 0), (600, 1), (600, 2), (600, 3)] ∧
      runLog s.log 1 = [300] := by
  have r0 : Reach wib 4 _ := .init
  have r1 := Reach.step _ _ r0 (.start _ rfl)
  have r2 := Reach.step _ _ r1 (.receive _ _ 300 (by simp [startCmd]) (recv (Pipeline.receive_in_step rfl (by decide) rfl)))
  have r3 := Reach.step _ _ r2 (.issue _ ⟨1, 650, 600, 700, 5, 0⟩ (Or.inl rfl))
  have r4 := Reach.step _ _ r3 (.notYet _ ⟨⟨1, 650, 600, 700, 5, 0⟩, 1⟩ _ (by simp [startCmd, St.init]) (Or.inl rfl) rfl rfl)
  have r5 := Reach.step _ _ r4 (.stopCall _ rfl)
  have r6 := Reach.step _ _ r5 (.waiterExit _ rfl rfl)
  have r7 := Reach.step _ _ r6 (.park _ ⟨⟨1, 650, 600, 700, 5, 0⟩, 1⟩ (by simp [startCmd, St.init]))
  have r8 := Reach.step _ _ r7 (.join _ rfl rfl rfl rfl)
  have r9 := Reach.step _ _ r8 (.finish _ _ rfl rfl)
  have r10 := Reach.step _ _ r9 (.start _ rfl)
  have r11 := Reach.step _ _ r10 (.receive _ _ 300 (by simp [startCmd]) (recv (Pipeline.receive_in_step rfl (by decide) rfl)))
  have r12 := Reach.step _ _ r11 (.receive _ _ 600 (by simp [startCmd]) (recv (Pipeline.receive_in_step rfl (by decide) rfl)))
  have r13 := Reach.step _ _ r12 (.receive _ _ 900 (by simp [startCmd]) (recv (Pipeline.receive_in_step rfl (by decide) rfl)))
  have r14 := Reach.step _ _ r13 (.reissue _ ⟨⟨1, 650, 600, 700, 5, 0⟩, 1⟩ (by simp [startCmd, St.init]) rfl)
  have r15 := Reach.step _ _ r14 (.reply _ ⟨⟨1, 650, 600, 700, 5, 0⟩, 1⟩ _ _ List.mem_cons_self (Or.inl rfl) rfl rfl)
  exact ⟨_, r15, _, List.mem_cons_self, rfl, rfl, rfl, rfl, rfl⟩

/-! ### No request is lost -/

/-- Specification: all requests the link has taken: waiting for a thread, evaluated and about to be parked, parked, answered. -/
def held (s : St) : List Issued := s.pool ++ (s.toPark ++ (s.waiting ++ s.sent.map (·.req)))

theorem held_of_eq {s s' : St} (h1 : s'.pool = s.pool) (h2 : s'.toPark = s.toPark) (h3 : s'.waiting = s.waiting)
    (h4 : s'.sent = s.sent) : (held s').Perm (held s) := by
  unfold held; rw [h1, h2, h3, h4]

theorem bind_ok_inv {α β : Type} {x : Outcome α} {f : α → Outcome β} {b : β} (h : (x >>= f) = .ok b) :
    ∃ a, x = .ok a ∧ f a = .ok b := by
  cases x with
  | ok a => exact ⟨a, rfl, h⟩
  | ub w => cases h
  | throws e => cases h

/-- **C71 (every request by the end of its run, partial)** As long as no request was parked after the waiting-list thread had
left, every request ever taken has been answered, in its own run, when stop has returned. Missing: requests parked late
(`C71_left_behind_counterexample`). -/
theorem C71_all_answered_partial (c : Cfg) (n : Nat) (s : St) (h : Reach c n s) (hl : s.lateParked = false)
    (hp : s.phase = .idle) (x : Issued) (hx : x ∈ held s) : ∃ e ∈ s.sent, e.req = x ∧ e.run = x.run := by
  have inv := inv2_reach h
  obtain ⟨h1, h2, h3⟩ := inv.quiet (.inl hp)
  simp only [held, h2, h3, inv.empty hl h1, List.nil_append, List.mem_map] at hx
  obtain ⟨e, he, rfl⟩ := hx
  exact ⟨e, he, rfl, (inv.sent hl e he).symm⟩

/-- A request is parked, given up by the waiting-list thread at stop, and the run ends. -/
example : ∃ s, Reach wib 4 s ∧ s.lateParked = false ∧ s.phase = .idle ∧
    (⟨⟨1, 650, 600, 700, 5, 0⟩, 1⟩ : Issued) ∈ held s := by
  have r0 : Reach wib 4 _ := .init
  have r1 := Reach.step _ _ r0 (.start _ rfl)
  have r2 := Reach.step _ _ r1 (.receive _ _ 300 (by simp [startCmd]) (recv (Pipeline.receive_in_step rfl (by decide) rfl)))
  have r3 := Reach.step _ _ r2 (.issue _ ⟨1, 650, 600, 700, 5, 0⟩ (Or.inl rfl))
  have r4 := Reach.step _ _ r3 (.notYet _ ⟨⟨1, 650, 600, 700, 5, 0⟩, 1⟩ _ (by simp [startCmd, St.init]) (Or.inl rfl) rfl rfl)
  have r5 := Reach.step _ _ r4 (.park _ ⟨⟨1, 650, 600, 700, 5, 0⟩, 1⟩ (by simp [startCmd, St.init]))
  have r6 := Reach.step _ _ r5 (.stopCall _ rfl)
  have r7 := Reach.step _ _ r6 (.giveUp _ ⟨⟨1, 650, 600, 700, 5, 0⟩, 1⟩ (by simp [startCmd, St.init]) rfl)
  have r8 := Reach.step _ _ r7 (.waiterExit _ rfl rfl)
  have r9 := Reach.step _ _ r8 (.join _ rfl rfl rfl rfl)
  have r10 := Reach.step _ _ r9 (.finish _ _ rfl rfl)
  exact ⟨_, r10, rfl, rfl, by simp [held]⟩

/-- **C71 is false of the code** at stop: a request parked after the waiting-list thread has left is not answered when stop has
returned. -/
theorem C71_left_behind_counterexample : ∃ s, Reach wib 4 s ∧ s.phase = .idle ∧ s.sent = [] ∧
    s.waiting = [⟨⟨1, 650, 600, 700, 5, 0⟩, 1⟩] := by
  have r0 : Reach wib 4 _ := .init
  have r1 := Reach.step _ _ r0 (.start _ rfl)
  have r2 := Reach.step _ _ r1 (.receive _ _ 300 (by simp [startCmd]) (recv (Pipeline.receive_in_step rfl (by decide) rfl)))
  have r3 := Reach.step _ _ r2 (.issue _ ⟨1, 650, 600, 700, 5, 0⟩ (Or.inl rfl))
  have r4 := Reach.step _ _ r3 (.notYet _ ⟨⟨1, 650, 600, 700, 5, 0⟩, 1⟩ _ (by simp [startCmd, St.init]) (Or.inl rfl) rfl rfl)
  have r5 := Reach.step _ _ r4 (.stopCall _ rfl)
  have r6 := Reach.step _ _ r5 (.waiterExit _ rfl rfl)
  have r7 := Reach.step _ _ r6 (.park _ ⟨⟨1, 650, 600, 700, 5, 0⟩, 1⟩ (by simp [startCmd, St.init]))
  have r8 := Reach.step _ _ r7 (.join _ rfl rfl rfl rfl)
  have r9 := Reach.step _ _ r8 (.finish _ _ rfl rfl)
  exact ⟨_, r9, rfl, rfl, rfl⟩

/-- **C70 (no request lost)** Whatever happens next, in any execution over any number of runs, the requests the link has taken
are the same ones, each as often as before, or one more of the present run. -/
theorem C70_conserved (c : Cfg) (n : Nat) (s s' : St) (h : Reach c n s) (st : Step c s s') :
    (held s').Perm (held s) ∨ ∃ dr, (held s').Perm (⟨dr, s.run⟩ :: held s) := by
  have hq := (inv2_reach h).quiet
  cases st with
  | start hp =>
    left
    simp only [held, startCmd, (hq (.inl hp)).2.1]
    exact .refl _
  | receive _ t hp he =>
    obtain ⟨r, -, he⟩ := bind_ok_inv he
    injection he with he; subst he
    exact .inl (held_of_eq rfl rfl rfl rfl)
  | clean _ limit toPop next hp he =>
    obtain ⟨r, -, he⟩ := bind_ok_inv he
    injection he with he; subst he
    exact .inl (held_of_eq rfl rfl rfl rfl)
  | issue dr hp => exact .inr ⟨dr, .refl _⟩
  | reply x r fr hx hp he hf =>
    left
    rw [List.perm_iff_count]
    intro y
    have := (List.perm_cons_erase hx).count_eq y
    simp only [held, List.map_cons, List.count_append, List.count_cons] at this ⊢
    omega
  | notYet x r hx hp he hf =>
    left
    rw [List.perm_iff_count]
    intro y
    have := (List.perm_cons_erase hx).count_eq y
    simp only [held, List.count_append, List.count_cons] at this ⊢
    omega
  | park x hx =>
    left
    rw [List.perm_iff_count]
    intro y
    have := (List.perm_cons_erase hx).count_eq y
    simp only [held, List.count_append, List.count_cons] at this ⊢
    omega
  | reissue x hx hw =>
    left
    rw [List.perm_iff_count]
    intro y
    have := (List.perm_cons_erase hx).count_eq y
    simp only [held, List.count_append, List.count_cons] at this ⊢
    omega
  | giveUp x hx hw =>
    left
    rw [List.perm_iff_count]
    intro y
    have := (List.perm_cons_erase hx).count_eq y
    simp only [held, List.map_cons, List.count_append, List.count_cons] at this ⊢
    omega
  | stopCall hp => exact .inl (.refl _)
  | waiterExit hp h => exact .inl (.refl _)
  | join hp hw h1 h2 => exact .inl (.refl _)
  | finish _ hp he =>
    obtain ⟨r, -, he⟩ := bind_ok_inv he
    injection he with he; subst he
    exact .inl (held_of_eq rfl rfl rfl rfl)

/-- Non-vacuity: the run of `demo_run` has answered a request. -/
example : ∃ s s', Reach wib 4 s ∧ Step wib s s' ∧ held s ≠ [] := by
  obtain ⟨s, h, hp, -, hl, -, -, e, he, h1, -⟩ := demo_run
  refine ⟨s, _, h, .stopCall s hp, ?_⟩
  simp only [held]
  intro h0
  have h0 : s.sent.map (·.req) = [] := by
    have := List.append_eq_nil_iff.1 h0
    have := List.append_eq_nil_iff.1 this.2
    exact (List.append_eq_nil_iff.1 this.2).2
  rw [List.map_eq_nil_iff] at h0
  rw [h0] at he
  cases he

end Verif.Session
