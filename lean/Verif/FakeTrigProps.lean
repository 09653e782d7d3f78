import Verif.FakeTrigModel
import Verif.RetainProps
import Verif.MiscProps
/- Property C121: fake triggers bring data. -/
namespace Verif.FakeTrig
open Verif.Session Verif.DataReq

/-- Specification: payloads come at equal distances. -/
def Regular (step : Nat) (ts : List Nat) : Prop :=
  ∀ (i : Nat) (a b : Nat), ts[i]? = some a → ts[i + 1]? = some b → b = a + step

/-- Specification: the requests made for trigger `k` and response queue `q`. -/
def madeFor (s : St) (k q : Nat) : List Made := s.made.filter (fun m => m.num = k ∧ m.queue = q)

theorem last_receive {c : Cfg} {s s' : Session.St} {t : Nat} (he : Session.receive c s t = .ok s') :
    s'.p.ck.last = t ∧ s'.run = s.run ∧ s'.phase = s.phase ∧ ∃ b, s'.log = s.log ++ [⟨s.run, t, b⟩] := by
  obtain ⟨r, h1, h2⟩ := Session.bind_ok_inv he
  obtain ⟨w, h3, h4⟩ := Session.bind_ok_inv h1
  cases h4
  cases h2
  exact ⟨rfl, rfl, rfl, _, rfl⟩

theorem last_clean {s s' : Session.St} {a b d : Nat} (he : Session.clean s a b d = .ok s') :
    s'.p.ck.last = s.p.ck.last ∧ s'.run = s.run ∧ s'.phase = s.phase ∧ s'.log = s.log := by
  obtain ⟨r, h1, h2⟩ := Session.bind_ok_inv he
  obtain ⟨w, h3, h4⟩ := Session.bind_ok_inv h1
  cases h4
  cases h2
  exact ⟨rfl, rfl, rfl, rfl⟩

theorem last_finish {s s' : Session.St} (he : Session.finish s = .ok s') :
    s'.p.ck.last = 0 ∧ s'.run = s.run ∧ s'.phase = .idle ∧ s'.log = s.log := by
  obtain ⟨r, h1, h2⟩ := Session.bind_ok_inv he
  cases h2
  exact ⟨rfl, rfl, rfl, rfl⟩

/-- The time of the last payload. -/
structure LastOk (s : Session.St) : Prop where
  idle : s.phase = .idle → s.p.ck.last = 0
  mem : s.p.ck.last ≠ 0 → s.p.ck.last ∈ runLog s.log s.run

theorem lastOk_step {rnd : ℚ → ℚ} {h : Conf.Handler} {c : Cfg} {x x' : Retain.St} (st : Retain.Step rnd h c x x')
    (ok : LastOk x.s) :
    LastOk x'.s ∧ (∃ more, x'.s.log = x.s.log ++ more) ∧ (x.s.phase ≠ .idle → x'.s.run = x.s.run) := by
  cases st with
  | start hp =>
    have h0 := ok.idle hp
    have hl : (startCmd c x.s).p.ck.last = 0 := by
      simp only [startCmd]
      split <;> exact h0
    exact ⟨⟨fun _ => hl, fun hne => absurd hl hne⟩, ⟨[], (List.append_nil _).symm⟩, fun h => absurd hp h⟩
  | receive s' t hp he =>
    obtain ⟨h1, h2, h3, b, h4⟩ := last_receive he
    refine ⟨⟨fun hi => absurd (h3 ▸ hi) hp, fun _ => ?_⟩, ⟨_, h4⟩, fun _ => h2⟩
    show s'.p.ck.last ∈ runLog s'.log s'.run
    rw [h1, h2, h4, runLog_append]
    simp
  | clean s' next hp he =>
    obtain ⟨h1, h2, h3, h4⟩ := last_clean he
    refine ⟨⟨fun hi => ?_, fun hne => ?_⟩, ⟨[], by rw [List.append_nil]; exact h4⟩, fun _ => h2⟩
    · have : x.s.phase = .idle := h3 ▸ hi
      rcases hp with hp | hp <;> rw [hp] at this <;> cases this
    · show s'.p.ck.last ∈ runLog s'.log s'.run
      have hne' : s'.p.ck.last ≠ 0 := hne
      rw [h1] at hne' ⊢
      rw [h2, h4]
      exact ok.mem hne'
  | finish s' hp he =>
    obtain ⟨h1, h2, h3, h4⟩ := last_finish he
    exact ⟨⟨fun _ => h1, fun hne => absurd h1 hne⟩, ⟨[], by rw [List.append_nil]; exact h4⟩, fun _ => h2⟩
  | other s' st hd hl hr hi =>
    refine ⟨⟨fun h => ?_, fun hne => ?_⟩, ⟨[], by rw [List.append_nil]; exact hl⟩, fun _ => hr⟩
    · show s'.p.ck.last = 0
      rw [hd]; exact ok.idle (hi.1 h)
    · show s'.p.ck.last ∈ runLog s'.log s'.run
      have hne' : s'.p.ck.last ≠ 0 := hne
      rw [hd] at hne' ⊢
      rw [hl, hr]; exact ok.mem hne'

theorem runLog_more (log more : List Arrival) (r t : Nat) (h : t ∈ runLog log r) : t ∈ runLog (log ++ more) r := by
  simp only [runLog, List.filter_append, List.map_append, List.mem_append]
  exact Or.inl h

/-- The index of the response queue served next, `nq` when the loop body is finished. -/
def served (f : Fake) (s : St) : Nat := match s.seen with
  | some (_, q) => q
  | none => f.nq

structure Inv (rnd : ℚ → ℚ) (h : Conf.Handler) (c : Cfg) (f : Fake) (n : Nat) (s : St) : Prop where
  reach : Retain.Reach rnd h c n s.x
  last : LastOk s.x.s
  seen : ∀ d q, s.seen = some (d, q) → d ∈ runLog s.x.s.log s.x.s.run ∧ s.x.s.phase ≠ .idle ∧ 0 < s.num ∧ q ≤ f.nq
  made : ∀ m ∈ s.made, m.daq ∈ runLog s.x.s.log m.run ∧ 0 < m.num
  each : ∀ k q, (madeFor s k q).length = if 0 < k ∧ (k < s.num ∨ k = s.num ∧ q < served f s) ∧ q < f.nq then 1 else 0

theorem issue_retain {rnd : ℚ → ℚ} {h : Conf.Handler} {c : Cfg} {n : Nat} {x : Retain.St} (hx : Retain.Reach rnd h c n x)
    (dr : Request) (hp : x.s.phase = .running ∨ x.s.phase = .stopping) :
    Retain.Reach rnd h c n { x with s := post x.s dr } :=
  .step _ _ hx (.other x (post x.s dr) (.issue x.s dr hp) rfl rfl rfl Iff.rfl)

theorem each_push {f : Fake} {s s' : St} {r d : Nat} {q : Nat} {b : Bool} (hn : 0 < s.num) (hq : q < f.nq)
    (hs : s.seen = some (d, q)) (hnum : s'.num = s.num) (hs' : s'.seen = some (d, q + 1))
    (hm : s'.made = ⟨r, d, s.num, q, b⟩ :: s.made)
    (each : ∀ k q, (madeFor s k q).length = if 0 < k ∧ (k < s.num ∨ k = s.num ∧ q < served f s) ∧ q < f.nq then 1 else 0)
    (k p : Nat) :
    (madeFor s' k p).length = if 0 < k ∧ (k < s'.num ∨ k = s'.num ∧ p < served f s') ∧ p < f.nq then 1 else 0 := by
  have h1 := each k p
  have e1 : served f s = q := by simp [served, hs]
  have e2 : served f s' = q + 1 := by simp [served, hs']
  rw [e1] at h1
  rw [e2, hnum]
  by_cases hk : s.num = k ∧ q = p
  · have : madeFor s' k p = ⟨r, d, s.num, q, b⟩ :: madeFor s k p := by
      simp [madeFor, hm, hk]
    rw [this, List.length_cons, h1, if_neg (by omega), if_pos (by omega)]
  · have : madeFor s' k p = madeFor s k p := by
      simp [madeFor, hm, hk]
    rw [this, h1]
    by_cases hh : 0 < k ∧ (k < s.num ∨ k = s.num ∧ p < q) ∧ p < f.nq
    · rw [if_pos hh, if_pos (by omega)]
    · rw [if_neg hh, if_neg (by omega)]

theorem inv_step {rnd : ℚ → ℚ} {h : Conf.Handler} {c : Cfg} {f : Fake} {n : Nat} {s s' : St}
    (st : Step rnd h c f s s') (inv : Inv rnd h c f n s) : Inv rnd h c f n s' := by
  cases st with
  | link x' st hj =>
    obtain ⟨h1, ⟨more, h2⟩, h3⟩ := lastOk_step st inv.last
    refine ⟨.step _ _ inv.reach st, h1, ?_, ?_, inv.each⟩
    · intro d q hs
      obtain ⟨g1, g2, g3, g4⟩ := inv.seen d q hs
      refine ⟨?_, ?_, g3, g4⟩
      · show d ∈ runLog x'.s.log x'.s.run
        rw [h2, h3 g2]; exact runLog_more _ _ _ _ g1
      · intro hi
        rcases hj hi with h | h
        · exact g2 h
        · have hs' : s.seen = some (d, q) := hs
          rw [h] at hs'; cases hs'
    · intro m hm
      show m.daq ∈ runLog x'.s.log m.run ∧ _
      rw [h2]; exact ⟨runLog_more _ _ _ _ (inv.made m hm).1, (inv.made m hm).2⟩
  | load hp hn hd =>
    refine ⟨inv.reach, inv.last, ?_, inv.made, ?_⟩
    · intro d q hs
      have hs' : some (s.x.s.p.ck.last, 0) = some (d, q) := hs
      cases hs'
      exact ⟨inv.last.mem hd, hp, Nat.succ_pos _, Nat.zero_le _⟩
    · intro k q
      have h1 := inv.each k q
      have e1 : served f s = f.nq := by simp [served, hn]
      rw [e1] at h1
      show (madeFor s k q).length = if 0 < k ∧ (k < s.num + 1 ∨ k = s.num + 1 ∧ q < 0) ∧ q < f.nq then 1 else 0
      rw [h1]
      by_cases hh : 0 < k ∧ (k < s.num ∨ k = s.num ∧ q < f.nq) ∧ q < f.nq
      · rw [if_pos hh, if_pos (by omega)]
      · rw [if_neg hh, if_neg (by omega)]
  | issue d q hs hq hp =>
    obtain ⟨g1, g2, g3, g4⟩ := inv.seen d q hs
    refine ⟨issue_retain inv.reach _ hp, ⟨inv.last.idle, inv.last.mem⟩, ?_, ?_, ?_⟩
    · intro d' q' hs'
      have hs'' : some (d, q + 1) = some (d', q') := hs'
      cases hs''
      exact ⟨g1, g2, g3, hq⟩
    · intro m hm
      rcases List.mem_cons.1 hm with rfl | hm
      · exact ⟨g1, g3⟩
      · exact inv.made m hm
    · exact each_push g3 hq hs rfl rfl rfl inv.each
  | late d q hs hq hp =>
    obtain ⟨g1, g2, g3, g4⟩ := inv.seen d q hs
    refine ⟨inv.reach, inv.last, ?_, ?_, ?_⟩
    · intro d' q' hs'
      have hs'' : some (d, q + 1) = some (d', q') := hs'
      cases hs''
      exact ⟨g1, g2, g3, hq⟩
    · intro m hm
      rcases List.mem_cons.1 hm with rfl | hm
      · exact ⟨g1, g3⟩
      · exact inv.made m hm
    · exact each_push g3 hq hs rfl rfl rfl inv.each
  | done d q hs hq =>
    refine ⟨inv.reach, inv.last, ?_, inv.made, ?_⟩
    · intro d' q' hs'
      have hs'' : (none : Option (Nat × Nat)) = some (d', q') := hs'
      cases hs''
    · intro k p
      have h1 := inv.each k p
      have e1 : served f s = q := by simp [served, hs]
      have := (inv.seen d q hs).2.2.2
      rw [e1, show q = f.nq by omega] at h1
      exact h1

theorem inv_reach {rnd : ℚ → ℚ} {h : Conf.Handler} {c : Cfg} {f : Fake} {n : Nat} {s : St}
    (hr : Reach rnd h c f n s) : Inv rnd h c f n s := by
  induction hr with
  | init =>
    refine ⟨.init, ⟨fun _ => rfl, fun h => absurd rfl h⟩, ?_, ?_, ?_⟩
    · intro d q hs; cases hs
    · intro m hm; cases hm
    · intro k q
      have hn : (St.init n).num = 0 := rfl
      rw [if_neg (by rw [hn]; omega)]
      rfl
  | step s s' hs st ih => exact inv_step st ih

/-! ### Property C121 -/

/-- **C121 (requests)** In every execution: every trigger that is finished was sent exactly once to every response queue, and
every request asks for the window from 500100 to 200100 ticks before (from zero on if that is negative) the time of a payload received in its run. -/
theorem C121_requests (rnd : ℚ → ℚ) (h : Conf.Handler) (c : Cfg) (f : Fake) (n : Nat) (s : St)
    (hr : Reach rnd h c f n s) (h64 : ∀ a ∈ s.x.s.log, a.ts < 18446744073709551616) :
    (∀ k q, 0 < k → (k < s.num ∨ k = s.num ∧ s.seen = none) → q < f.nq → (madeFor s k q).length = 1) ∧
    ∀ m ∈ s.made, 0 < m.num ∧ m.num ≤ s.num ∧ m.queue < f.nq ∧ m.daq ∈ runLog s.x.s.log m.run ∧
      (reqOf f m.num m.daq).trigNum = m.num ∧ (reqOf f m.num m.daq).wBegin = m.daq - 500100 ∧
      (reqOf f m.num m.daq).wEnd = m.daq - 500100 + 300000 := by
  have inv := inv_reach hr
  constructor
  · intro k q hk hd hq
    rw [inv.each, if_pos]
    refine ⟨hk, ?_, hq⟩
    rcases hd with hd | ⟨hd, hn⟩
    · exact Or.inl hd
    · exact Or.inr ⟨hd, by simp [served, hn, hq]⟩
  · intro m hm
    obtain ⟨h1, h2⟩ := inv.made m hm
    have hlen : 0 < (madeFor s m.num m.queue).length :=
      List.length_pos_of_mem (List.mem_filter.2 ⟨hm, by simp⟩)
    rw [inv.each] at hlen
    have hcond : 0 < m.num ∧ (m.num < s.num ∨ m.num = s.num ∧ m.queue < served f s) ∧ m.queue < f.nq := by
      by_contra hcon
      rw [if_neg hcon] at hlen
      omega
    have hd : m.daq < 18446744073709551616 := by
      obtain ⟨a, ha, e⟩ := List.mem_map.1 h1
      rw [← e]
      exact h64 a (List.mem_filter.1 ha).1
    obtain ⟨w1, w2, w3⟩ := Misc.C54_window (m.num - 1) m.daq hd
    have hwb : (Misc.fakeReq (m.num - 1) m.daq).wb = m.daq - 500100 := by
      have hfd : Misc.fakeDelay = 500000 := rfl
      simp only [Misc.fakeReq]
      by_cases hh : m.daq > Misc.fakeDelay
      · rw [if_pos hh]; split <;> omega
      · rw [if_neg hh]; simp; omega
    refine ⟨h2, by omega, hcond.2.2, h1, ?_, hwb, ?_⟩
    · show m.num - 1 + 1 = m.num
      omega
    · show (Misc.fakeReq (m.num - 1) m.daq).we = _
      rw [w1, hwb]

theorem step_session {rnd : ℚ → ℚ} {h : Conf.Handler} {c : Cfg} {x x' : Retain.St} (st : Retain.Step rnd h c x x') :
    Session.Step c x.s x'.s := by
  cases st with
  | start hp => exact .start _ hp
  | receive s' t hp he => exact .receive _ _ t hp he
  | clean s' next hp he => exact .clean _ _ _ _ _ hp he
  | finish s' hp he => exact .finish _ _ hp he
  | other s' st _ _ _ _ => exact st

theorem reach_session {rnd : ℚ → ℚ} {h : Conf.Handler} {c : Cfg} {n : Nat} {x : Retain.St} (hx : Retain.Reach rnd h c n x) :
    Session.Reach c n x.s := by
  induction hx with
  | init => exact .init
  | step x x' _ st ih => exact .step _ _ ih (step_session st)

/-- Specification: the requests that the pool took, as the link sees them. -/
def handed (f : Fake) (s : St) : List Issued := (s.made.filter (·.taken)).map fun m => ⟨reqOf f m.num m.daq, m.run⟩

/-- **C121 (no request lost)** Every request made while the handler had not stopped stays with the link until it is answered,
for every response queue: in every later state it is in the pool, about to be parked, waiting, or answered, as
often as it was made. -/
theorem C121_handed (rnd : ℚ → ℚ) (h : Conf.Handler) (c : Cfg) (f : Fake) (n : Nat) (s : St)
    (hr : Reach rnd h c f n s) (y : Issued) : (handed f s).count y ≤ (Session.held s.x.s).count y := by
  induction hr with
  | init => simp [handed, St.init]
  | step s s' hs st ih =>
    have grow : ∀ {u : Session.St}, Session.Step c s.x.s u → (Session.held s.x.s).count y ≤ (Session.held u).count y := by
      intro u hu
      rcases Session.C70_conserved c n _ _ (reach_session (inv_reach hs).reach) hu with hp | ⟨dr, hp⟩
      · rw [hp.count_eq]
      · rw [hp.count_eq, List.count_cons]; omega
    cases st with
    | link x' st hj => exact Nat.le_trans ih (grow (step_session st))
    | load hp hn hd => exact ih
    | issue d q hs' hq hp =>
      have e2 : Session.held (post s.x.s (reqOf f s.num d)) = ⟨reqOf f s.num d, s.x.s.run⟩ :: Session.held s.x.s := rfl
      show ((⟨reqOf f s.num d, s.x.s.run⟩ :: handed f s : List Issued)).count y
        ≤ (Session.held (post s.x.s (reqOf f s.num d))).count y
      rw [e2, List.count_cons, List.count_cons]
      omega
    | late d q hs' hq hp => exact ih
    | done d q hs' hq => exact ih

theorem regular_get {step : Nat} {ts : List Nat} (h : Regular step ts) {a : Nat} (h0 : ts.head? = some a) (i t : Nat)
    (ht : ts[i]? = some t) : t = a + i * step := by
  induction i generalizing t with
  | zero => rw [List.head?_eq_getElem?] at h0; rw [h0] at ht; cases ht; simp
  | succ i ih =>
    have hlt : i + 1 < ts.length := (List.getElem?_eq_some_iff.1 ht).1
    have hq : ts[i]? = some (ts[i]'(by omega)) := List.getElem?_eq_getElem (by omega)
    rw [h i _ t hq ht, ih _ hq, Nat.succ_mul, Nat.add_assoc]

theorem regular_steady {step : Nat} {ts : List Nat} (h : Regular step ts)
    (hb : ∀ t ∈ ts, t + step < 18446744073709551616) : Steady step ts := by
  refine ⟨?_, hb⟩
  rw [List.pairwise_iff_getElem]
  intro i j hi hj hij
  obtain ⟨a, ha⟩ : ∃ a, ts.head? = some a := by
    cases ts with
    | nil => simp at hi
    | cons a _ => exact ⟨a, rfl⟩
  rw [regular_get h ha i _ (List.getElem?_eq_getElem hi), regular_get h ha j _ (List.getElem?_eq_getElem hj)]
  have : (i + 1) * step ≤ j * step := Nat.mul_le_mul_right _ hij
  rw [Nat.succ_mul] at this
  omega

/-- Number of samples in a window whose length is a multiple of the sample distance. -/
theorem samples_count {tick t0 b M : Nat} (ht : 0 < tick) (hb : t0 ≤ b) (l : List Nat) (hl : l.Pairwise (· < ·))
    (hm : ∀ t, t ∈ l ↔ ∃ j, t = t0 + j * tick ∧ b ≤ t ∧ t < b + M * tick) : l.length = M := by
  obtain ⟨k, hk⟩ : ∃ k, k = (b - t0 + tick - 1) / tick := ⟨_, rfl⟩
  have hlow : ∀ j, b ≤ t0 + j * tick ↔ k ≤ j := by
    intro j
    have e1 : k ≤ j ↔ b - t0 + tick - 1 < (j + 1) * tick := by
      rw [hk, ← Nat.div_lt_iff_lt_mul ht]; omega
    rw [e1, Nat.succ_mul]
    omega
  have hhigh : ∀ j, t0 + j * tick < b + M * tick ↔ j < k + M := by
    intro j
    by_cases hj : M ≤ j
    · obtain ⟨i, rfl⟩ := Nat.exists_eq_add_of_le hj
      have := hlow i
      rw [Nat.add_mul]
      omega
    · have : (j + 1) * tick ≤ M * tick := Nat.mul_le_mul_right _ (by omega)
      rw [Nat.succ_mul] at this
      omega
  have hperm : l.Perm ((List.range M).map fun i => t0 + (k + i) * tick) := by
    refine (List.perm_ext_iff_of_nodup (hl.imp fun h => Nat.ne_of_lt h) ?_).2 ?_
    · refine List.pairwise_map.2 (List.pairwise_lt_range.imp ?_)
      intro i j hij heq
      have h1 : (k + i) * tick = (k + j) * tick := Nat.add_left_cancel heq
      have := Nat.eq_of_mul_eq_mul_right ht h1
      omega
    · intro t
      rw [hm t, List.mem_map]
      constructor
      · rintro ⟨j, rfl, h1, h2⟩
        have h1' := (hlow j).1 h1
        have h2' := (hhigh j).1 h2
        refine ⟨j - k, List.mem_range.2 (by omega), ?_⟩
        rw [show k + (j - k) = j by omega]
      · rintro ⟨i, hi, rfl⟩
        have := List.mem_range.1 hi
        exact ⟨k + i, rfl, (hlow _).2 (by omega), (hhigh _).2 (by omega)⟩
  rw [hperm.length_eq]
  simp

/-- **C121 (answers, partial)** A link with accepted settings under the conditions of C100 (no cleanup met a recording, bursts within the
reserve), receiving payloads at equal distances, with a sample distance that divides 300000. A fake trigger made in the present
run for time `daq`, with the first payload of the run at least 500100 ticks before `daq`, and with the payloads since the window's begin among those
the buffer keeps, is answered at its first evaluation, without the error bit, with exactly 300000 / tick frames: those of
the window. Missing: the first triggers of a run, where this is false (next theorem), buffers that are too small, gaps. -/
theorem C121_answered_partial (rnd : ℚ → ℚ) (hs : Conf.Single rnd) (h : Conf.Handler) (p : Conf.Params) (c : Cfg)
    (f : Fake) (n K R : Nat) (hc : Link c n) (hok : Cleanup.Accepted p.limitPct p.sizePct) (hcap : p.capacity = n)
    (hmax : p.sizePct ≤ 1 - 1 / 4194304) (hk : Retain.Kept p.limitPct p.sizePct n K)
    (hf : Retain.Fits p.limitPct p.sizePct n R) (s : St)
    (hr : Reach rnd (Conf.conf rnd h p).1 c f n s) (hp : s.x.s.phase ≠ .idle) (hw : s.x.worst ≤ R)
    (hh : s.x.held = false) (ht : ∀ a ∈ s.x.s.log, a.ts + c.tick * c.nf < 18446744073709551616)
    (hreg : Regular (c.tick * c.nf) (runLog s.x.s.log s.x.s.run)) (t0 z : Nat)
    (h0 : (runLog s.x.s.log s.x.s.run).head? = some t0) (hz : (runLog s.x.s.log s.x.s.run).getLast? = some z)
    (hdiv : c.tick ∣ 300000) (m : Made) (hm : m ∈ s.made) (hmr : m.run = s.x.s.run)
    (hearly : t0 + 500100 ≤ m.daq) (hK : (z - (m.daq - 500100)) / (c.tick * c.nf) + 2 ≤ K) :
    ∃ r fr, answer c s.x.s (reqOf f m.num m.daq) = .ok r ∧ r.fragment = some fr ∧ fr.header.dataNotFound = false ∧
      fr.frames.length = 300000 / c.tick ∧
      ∀ g, g ∈ fr.frames ↔ InWindow c.tick c.nf (runLog s.x.s.log s.x.s.run) (m.daq - 500100) (m.daq - 200100) g := by
  have inv := inv_reach hr
  have hstep : 0 < c.tick * c.nf := Nat.mul_pos hc.tick hc.nf
  obtain ⟨-, -, -, hmem, -, hwb, hwe⟩ := (C121_requests rnd _ c f n s hr (fun a ha => by have := ht a ha; omega)).2 m hm
  rw [hmr] at hmem
  have hb : ∀ t ∈ runLog s.x.s.log s.x.s.run, t + c.tick * c.nf < 18446744073709551616 := by
    intro t h'
    obtain ⟨a, ha, e⟩ := List.mem_map.1 h'
    rw [← e]; exact ht a (List.mem_filter.1 ha).1
  have hst := regular_steady hreg hb
  have hwe' : (reqOf f m.num m.daq).wEnd = m.daq - 200100 := by rw [hwe]; omega
  -- indices
  obtain ⟨N, hN⟩ : ∃ N, N = (runLog s.x.s.log s.x.s.run).length := ⟨_, rfl⟩
  have hNpos : 0 < N := by
    rw [hN]; exact List.length_pos_of_mem hmem
  have hzt : z = t0 + (N - 1) * (c.tick * c.nf) := by
    refine regular_get hreg h0 (N - 1) z ?_
    rw [hN, ← List.getLast?_eq_getElem?]; exact hz
  have hdz : m.daq ≤ z := by
    obtain ⟨i, hi⟩ := List.mem_iff_getElem?.1 hmem
    have hlt := (List.getElem?_eq_some_iff.1 hi).1
    rw [regular_get hreg h0 i _ hi, hzt]
    have : i * (c.tick * c.nf) ≤ (N - 1) * (c.tick * c.nf) := Nat.mul_le_mul_right _ (by omega)
    omega
  obtain ⟨wb, hwbdef⟩ : ∃ wb, wb = m.daq - 500100 := ⟨_, rfl⟩
  rw [← hwbdef] at hK hwb hwe ⊢
  obtain ⟨i0, hi0⟩ : ∃ i0, i0 = (wb - t0) / (c.tick * c.nf) := ⟨_, rfl⟩
  have hi1 : i0 * (c.tick * c.nf) ≤ wb - t0 := by rw [hi0]; exact Nat.div_mul_le_self _ _
  have hi2 : wb - t0 < (i0 + 1) * (c.tick * c.nf) := by
    rw [hi0, ← Nat.div_lt_iff_lt_mul hstep]; omega
  have hiN : i0 < N := by
    have : i0 * (c.tick * c.nf) ≤ (N - 1) * (c.tick * c.nf) := by omega
    have := Nat.le_of_mul_le_mul_right this hstep
    omega
  have hlenK : N - i0 ≤ K := by
    have : (N - 2 - i0) * (c.tick * c.nf) ≤ z - wb := by
      by_cases h2 : N ≤ 2 + i0
      · rw [show N - 2 - i0 = 0 by omega]; omega
      · obtain ⟨k, hk⟩ : ∃ k, N = k + 2 + i0 := ⟨N - 2 - i0, by omega⟩
        have e1 : (N - 1) * (c.tick * c.nf) = k * (c.tick * c.nf) + (i0 + 1) * (c.tick * c.nf) := by
          rw [← Nat.add_mul, show k + (i0 + 1) = N - 1 by omega]
        rw [show N - 2 - i0 = k by omega]
        omega
    have := (Nat.le_div_iff_mul_le hstep).2 this
    omega
  obtain ⟨a, ha⟩ : ∃ a, (runLog s.x.s.log s.x.s.run)[i0]? = some a :=
    ⟨_, List.getElem?_eq_getElem (by omega)⟩
  have hat := regular_get hreg h0 i0 a ha
  obtain ⟨r, fr, e1, e2, e3, e4⟩ := Retain.C100_recent_available_partial rnd hs h p c n K R hc hok hcap hmax hk hf s.x
    inv.reach hp hw hh (fun a ha => by have := ht a ha; omega) hst
    ((runLog s.x.s.log s.x.s.run).drop i0) (List.drop_suffix _ _) (by rw [List.length_drop]; omega) a z
    (by rw [List.head?_drop]; exact ha)
    (by rw [List.getLast?_drop, if_neg (by omega)]; exact hz) (reqOf f m.num m.daq) (by omega) (by omega) (by omega)
  rw [hwb, hwe'] at e4
  refine ⟨r, fr, e1, e2, e3, ?_, e4⟩
  -- the order of the frames
  obtain ⟨l, sinv⟩ := Session.inv_reach hc (reach_session inv.reach)
  have hall : AllStored s.x.s.log s.x.s.run := by
    obtain ⟨l', inv'⟩ := Retain.inv_reach (K := K) (R := R) hc.size (Retain.keeps_of hs h p hok hcap hmax hk) inv.reach
    exact fun b hb' _ => (inv'.room (Retain.roomy_of hs h p hc.size hok hcap hf) hh hw
      (fun a ha => by have := ht a ha; simp only [Retain.noRecording]; omega)).2 b hb'
  obtain ⟨r', e1', hcode, hnone, hfr⟩ := Session.answer_eval hc (sinv.flow hall hst) hst (reqOf f m.num m.daq) (by omega)
  rw [e1] at e1'
  cases e1'
  obtain ⟨g1, -, g3⟩ := hfr fr e2
  have hfound : r.code = .found := by
    by_contra hcon
    rw [g1] at e3
    simp [hcon] at e3
  have hpw := (g3 hfound [] (by rw [List.append_nil]; exact hst)).2
  obtain ⟨M, hM⟩ := hdiv
  rw [hM, Nat.mul_div_cancel_left _ hc.tick]
  have := samples_count (tick := c.tick) (t0 := t0) (b := wb) (M := M) hc.tick (by omega)
    (fr.frames.map fun g => g.1 + g.2 * c.tick) (List.pairwise_map.2 hpw) ?_
  · rwa [List.length_map] at this
  · intro t
    rw [List.mem_map]
    have hMt : wb + M * c.tick = m.daq - 200100 := by rw [Nat.mul_comm M, ← hM]; omega
    rw [hMt]
    constructor
    · rintro ⟨g, hg, rfl⟩
      obtain ⟨w1, w2, w3, w4⟩ := (e4 g).1 hg
      obtain ⟨i, hi⟩ := List.mem_iff_getElem?.1 w1
      refine ⟨i * c.nf + g.2, ?_, w3, w4⟩
      rw [regular_get hreg h0 i _ hi, Nat.add_mul, Nat.mul_assoc, Nat.mul_comm c.nf, Nat.add_assoc]
    · rintro ⟨j, rfl, w3, w4⟩
      have hjN : j / c.nf < N := by
        rw [Nat.div_lt_iff_lt_mul hc.nf]
        have e5 : t0 + j * c.tick < t0 + (N - 1) * (c.tick * c.nf) := by omega
        have e6 : j * c.tick < (N - 1) * c.nf * c.tick := by
          rw [Nat.mul_assoc, Nat.mul_comm c.nf]; omega
        have e7 := Nat.lt_of_mul_lt_mul_right e6
        have e8 : (N - 1) * c.nf ≤ N * c.nf := Nat.mul_le_mul_right _ (by omega)
        omega
      have hq : (runLog s.x.s.log s.x.s.run)[j / c.nf]? = some ((runLog s.x.s.log s.x.s.run)[j / c.nf]'(by omega)) :=
        List.getElem?_eq_getElem (by omega)
      have hqt := regular_get hreg h0 _ _ hq
      have hsum : (runLog s.x.s.log s.x.s.run)[j / c.nf]'(by omega) + j % c.nf * c.tick = t0 + j * c.tick := by
        have e9 : j / c.nf * (c.tick * c.nf) + j % c.nf * c.tick = j * c.tick := by
          rw [Nat.mul_comm c.tick, ← Nat.mul_assoc, ← Nat.add_mul, Nat.mul_comm (j / c.nf), Nat.div_add_mod]
        rw [hqt, Nat.add_assoc, e9]
      refine ⟨((runLog s.x.s.log s.x.s.run)[j / c.nf]'(by omega), j % c.nf), (e4 _).2
        ⟨List.mem_of_getElem? hq, Nat.mod_lt _ hc.nf, ?_, ?_⟩, hsum⟩
      · show wb ≤ _ + j % c.nf * c.tick
        rw [hsum]; exact w3
      · show _ + j % c.nf * c.tick < _
        rw [hsum]; exact w4

/-- **C121 is false for the first triggers of a run**: whenever it is evaluated in its run, a fake trigger made less than 500100
ticks after the first payload of the run (and after time 500100 of the clock) is answered with the error bit and without
data, however large the buffer. -/
theorem C121_early_error (rnd : ℚ → ℚ) (h : Conf.Handler) (c : Cfg) (f : Fake) (n : Nat) (hc : Link c n) (s : St)
    (hr : Reach rnd h c f n s) (hall : AllStored s.x.s.log s.x.s.run)
    (hst : Steady (c.tick * c.nf) (runLog s.x.s.log s.x.s.run)) (t0 : Nat)
    (h64 : ∀ a ∈ s.x.s.log, a.ts < 18446744073709551616)
    (h0 : (runLog s.x.s.log s.x.s.run).head? = some t0) (m : Made) (hm : m ∈ s.made)
    (hearly : m.daq - 500100 < t0) :
    ∃ r fr, answer c s.x.s (reqOf f m.num m.daq) = .ok r ∧ r.fragment = some fr ∧ fr.header.dataNotFound = true ∧
      fr.frames = [] := by
  have inv := inv_reach hr
  obtain ⟨-, -, -, -, -, hwb, hwe⟩ := (C121_requests rnd _ c f n s hr h64).2 m hm
  obtain ⟨l, sinv⟩ := Session.inv_reach hc (reach_session inv.reach)
  have pinv := sinv.flow hall hst
  obtain ⟨r, e1, hcode, hnone, hfr⟩ := Session.answer_eval hc pinv hst (reqOf f m.num m.daq) (by omega)
  have hnf : r.code = .notFound := by
    rw [hcode]
    cases hl : l with
    | nil => simp [classify, bounds]
    | cons b l' =>
      have hb := Retain.suffix_head_le hst pinv.suf h0 (by rw [hl]; rfl)
      obtain ⟨y, hy⟩ : ∃ y, (b :: l').getLast? = some y := by
        cases hh : (b :: l').getLast? with
        | none => simp at hh
        | some y => exact ⟨y, rfl⟩
      have hlt : (reqOf f m.num m.daq).wBegin < c.T.ts b := by
        have e : c.T.ts b = b := rfl
        rw [hwb, e]; exact Nat.lt_of_lt_of_le hearly hb
      simp only [classify, bounds, List.head?_cons, hy, if_pos hlt]
  cases hx : r.fragment with
  | none => rw [hnone.1 hx] at hnf; cases hnf
  | some fr =>
    obtain ⟨g1, g2, -⟩ := hfr fr hx
    have hne : r.code ≠ .found := by rw [hnf]; simp
    exact ⟨r, fr, e1, hx, by rw [g1]; simp [hnf], g2 hne⟩

/-- The settings that the configuration generator gives to a WIB link at full rate: three seconds of data, limit 0.8, a tenth removed
(python/readout/app_confgen.py). -/
def wibSettings : Conf.Params := ⟨4/5, 1/10, 500000, false, "a"⟩

/-- **C121 for WIB links as generated**: in a run without gaps, with at most 49000 payloads (0.29 s) between cleanup passes and none of
them during a recording, every fake trigger but those of the first 10 ms of the run brings exactly 12000 frames if evaluated within two
seconds. -/
theorem C121_wib_partial (rnd : ℚ → ℚ) (hs : Conf.Single rnd) (h : Conf.Handler) (f : Fake) (s : St)
    (hr : Reach rnd (Conf.conf rnd h wibSettings).1 wib f 500000 s) (hp : s.x.s.phase ≠ .idle) (hw : s.x.worst ≤ 49000)
    (hh : s.x.held = false) (ht : ∀ a ∈ s.x.s.log, a.ts + 300 < 18446744073709551616)
    (hreg : Regular 300 (runLog s.x.s.log s.x.s.run)) (t0 z : Nat)
    (h0 : (runLog s.x.s.log s.x.s.run).head? = some t0) (hz : (runLog s.x.s.log s.x.s.run).getLast? = some z)
    (m : Made) (hm : m ∈ s.made) (hmr : m.run = s.x.s.run) (hearly : t0 + 500100 ≤ m.daq)
    (hage : z ≤ m.daq + 100000000) :
    ∃ r fr, answer wib s.x.s (reqOf f m.num m.daq) = .ok r ∧ r.fragment = some fr ∧ fr.header.dataNotFound = false ∧
      fr.frames.length = 12000 ∧
      ∀ g, g ∈ fr.frames ↔ InWindow 25 12 (runLog s.x.s.log s.x.s.run) (m.daq - 500100) (m.daq - 200100) g := by
  refine C121_answered_partial rnd hs h wibSettings wib f 500000 350000 49000
    ⟨by decide, by decide, by decide, Or.inr rfl, by decide, by decide⟩ (by constructor <;> norm_num [wibSettings]) rfl
    (by norm_num [wibSettings]) (by norm_num [Retain.Kept, wibSettings])
    (by constructor <;> norm_num [wibSettings]) s hr hp hw hh ht hreg t0 z h0 hz (by decide) m hm hmr hearly ?_
  have e : wib.tick * wib.nf = 300 := rfl
  rw [e]
  omega

/-! ### A concrete link: one payload of 12 frames lasts 300000 ticks (to keep it small), a buffer of 32 payloads of which half
may be filled and half is removed -/

def slow : Cfg := ⟨25000, 12, .fixed 12, ⟨3, 1, 7⟩, 1, true⟩

theorem slow_link : Link slow 32 := ⟨by decide, by decide, by decide, Or.inr rfl, by decide, by decide⟩

def halves : Conf.Params := ⟨1/2, 1/2, 32, false, "a"⟩

def two : Fake := ⟨2, 0, 0⟩

abbrev SReach := Reach id (Conf.conf id Conf.Handler.new halves).1 slow two 32

theorem halves_ok : Cleanup.Accepted halves.limitPct halves.sizePct := by constructor <;> norm_num [halves]
theorem halves_kept : Retain.Kept halves.limitPct halves.sizePct 32 3 := by norm_num [Retain.Kept, halves]
theorem halves_fits : Retain.Fits halves.limitPct halves.sizePct 32 8 := by constructor <;> norm_num [halves]

theorem recvStep {s : St} {t : Nat} {p : Pipeline.St} {b : Bool} (hs : SReach s) (hp : s.x.s.phase ≠ .idle)
    (he : Pipeline.receive 300000 s.x.s.p t = .ok (p, b)) :
    SReach { s with x := Retain.arrived s.x { s.x.s with p := p, log := s.x.s.log ++ [⟨s.x.s.run, t, b⟩] } } :=
  .step _ _ hs (.link _ _ (.receive _ _ t hp (recv (c := slow) he)) (fun h => absurd h hp))

/-- Four payloads; a fake trigger after the first and one after the last, both sent to both response queues. -/
theorem demo : ∃ s, SReach s ∧ s.x.s.phase = .running ∧ s.x.s.run = 1 ∧ s.x.worst = 4 ∧ s.x.held = false ∧
    s.x.s.log = [⟨1, 900000, true⟩, ⟨1, 1200000, true⟩, ⟨1, 1500000, true⟩, ⟨1, 1800000, true⟩] ∧
    s.num = 2 ∧ s.seen = none ∧
    s.made = [⟨1, 1800000, 2, 1, true⟩, ⟨1, 1800000, 2, 0, true⟩, ⟨1, 900000, 1, 1, true⟩, ⟨1, 900000, 1, 0, true⟩] := by
  have r0 : SReach _ := .init
  have r1 : SReach _ := .step _ _ r0 (.link _ _ (.start _ rfl) (fun h => by cases h))
  have r2 := recvStep (t := 900000) r1 (by simp [startCmd]) rfl
  have r3 : SReach _ := .step _ _ r2 (.load _ (by simp [Retain.arrived, startCmd]) rfl (by decide))
  have r4 : SReach _ := .step _ _ r3 (.issue _ 900000 0 rfl (by decide) (Or.inl rfl))
  have r5 : SReach _ := .step _ _ r4 (.issue _ 900000 1 rfl (by decide) (Or.inl rfl))
  have r6 : SReach _ := .step _ _ r5 (.done _ 900000 2 rfl (by decide))
  have r7 := recvStep (t := 1200000) r6 (by simp [Retain.arrived, startCmd, post]) rfl
  have r8 := recvStep (t := 1500000) r7 (by simp [Retain.arrived, startCmd, post]) rfl
  have r9 := recvStep (t := 1800000) r8 (by simp [Retain.arrived, startCmd, post]) rfl
  have r10 : SReach _ := .step _ _ r9 (.load _ (by simp [Retain.arrived, startCmd, post]) rfl (by decide))
  have r11 : SReach _ := .step _ _ r10 (.issue _ 1800000 0 rfl (by decide) (Or.inl rfl))
  have r12 : SReach _ := .step _ _ r11 (.issue _ 1800000 1 rfl (by decide) (Or.inl rfl))
  have r13 : SReach _ := .step _ _ r12 (.done _ 1800000 2 rfl (by decide))
  exact ⟨_, r13, rfl, rfl, rfl, rfl, rfl, rfl, rfl, rfl⟩

theorem demo_regular : Regular 300000 [900000, 1200000, 1500000, 1800000] := by
  intro i a b h1 h2
  match i with
  | 0 => simp at h1 h2; subst h1 h2; rfl
  | 1 => simp at h1 h2; subst h1 h2; rfl
  | 2 => simp at h1 h2; subst h1 h2; rfl
  | i + 3 => simp at h2

/-- Non-vacuity for C121_requests and C121_handed. -/
example : ∃ s, SReach s ∧ (handed two s).length = 4 ∧ (madeFor s 2 1).length = 1 ∧
    ∀ a ∈ s.x.s.log, a.ts < 18446744073709551616 := by
  obtain ⟨s, hr, -, -, -, -, hlog, -, -, hm⟩ := demo
  refine ⟨s, hr, ?_, ?_, by rw [hlog]; simp⟩
  · rw [handed, hm]; rfl
  · rw [madeFor, hm]; rfl

/-- Non-vacuity for C121_answered_partial: its hypotheses are met, twelve frames come for [1299900, 1599900). -/
example : ∃ s, SReach s ∧ ∃ m ∈ s.made, m.num = 2 ∧ ∃ r fr, answer slow s.x.s (reqOf two m.num m.daq) = .ok r ∧
    r.fragment = some fr ∧ fr.header.dataNotFound = false ∧ fr.frames.length = 12 := by
  obtain ⟨s, hr, hp, hrun, hw, hh, hlog, hn, hs, hm⟩ := demo
  have hrl : runLog s.x.s.log s.x.s.run = [900000, 1200000, 1500000, 1800000] := by rw [hlog, hrun]; rfl
  refine ⟨s, hr, ⟨1, 1800000, 2, 1, true⟩, by rw [hm]; simp, rfl, ?_⟩
  obtain ⟨r, fr, e1, e2, e3, e4, -⟩ := C121_answered_partial id Conf.single_id Conf.Handler.new halves slow two 32 3 8 slow_link halves_ok rfl
    (by norm_num [halves]) halves_kept halves_fits s hr (by rw [hp]; simp) (by omega) hh
    (by rw [hlog]; simp [slow]) (by rw [hrl]; exact demo_regular) 900000 1800000 (by rw [hrl]; rfl) (by rw [hrl]; rfl)
    (by decide) ⟨1, 1800000, 2, 1, true⟩ (by rw [hm]; simp) hrun.symm (by decide) (by decide)
  exact ⟨r, fr, e1, e2, e3, e4⟩

/-- **C121 is false of the code**: the first fake trigger of a run asks for a time before the run and gets an empty fragment with
the error bit, even after the data of later triggers have arrived. -/
theorem C121_first_counterexample : ∃ s, SReach s ∧ ∃ m ∈ s.made, m.num = 1 ∧ m.run = s.x.s.run ∧
    ∃ r fr, answer slow s.x.s (reqOf two m.num m.daq) = .ok r ∧ r.fragment = some fr ∧
      fr.header.dataNotFound = true ∧ fr.frames = [] := by
  obtain ⟨s, hr, hp, hrun, hw, hh, hlog, hn, hs, hm⟩ := demo
  have hrl : runLog s.x.s.log s.x.s.run = [900000, 1200000, 1500000, 1800000] := by rw [hlog, hrun]; rfl
  refine ⟨s, hr, ⟨1, 900000, 1, 0, true⟩, by rw [hm]; simp, rfl, hrun.symm, ?_⟩
  refine C121_early_error id _ slow two 32 slow_link s hr ?_ ?_ 900000 (by rw [hlog]; simp) (by rw [hrl]; rfl) _ (by rw [hm]; simp) (by decide)
  · intro a ha _
    rw [hlog] at ha
    simp at ha
    rcases ha with rfl | rfl | rfl | rfl <;> rfl
  · rw [hrl]
    exact regular_steady demo_regular (by simp [slow])

/-- **C121 is false of the code**: a fake trigger made while the link stops is handed to a pool that has ended. -/
theorem C121_late_counterexample : ∃ s, SReach s ∧ s.x.s.phase = .joined ∧ s.x.s.pool = [] ∧ s.x.s.sent = [] ∧
    s.made = [⟨1, 900000, 1, 0, false⟩] := by
  have r0 : SReach _ := .init
  have r1 : SReach _ := .step _ _ r0 (.link _ _ (.start _ rfl) (fun h => by cases h))
  have r2 := recvStep (t := 900000) r1 (by simp [startCmd]) rfl
  have r3 : SReach _ := .step _ _ r2 (.load _ (by simp [Retain.arrived, startCmd]) rfl (by decide))
  have r4 : SReach _ := .step _ _ r3 (.link _ _ (.other _ _ (.stopCall _ rfl) rfl rfl rfl (by simp [Retain.arrived, startCmd]))
    (fun h => by cases h))
  have r5 : SReach _ := .step _ _ r4 (.link _ _ (.other _ _ (.waiterExit _ rfl rfl) rfl rfl rfl Iff.rfl) (fun h => by cases h))
  have r6 : SReach _ := .step _ _ r5 (.link _ _ (.other _ _ (.join _ rfl rfl rfl rfl) rfl rfl rfl (by simp))
    (fun h => by cases h))
  have r7 : SReach _ := .step _ _ r6 (.late _ 900000 0 rfl (by decide) rfl)
  exact ⟨_, r7, rfl, rfl, rfl, rfl⟩

end Verif.FakeTrig
