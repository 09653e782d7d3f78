import Verif.RetainModel
import Verif.SessionProps
import Verif.ConfProps
/- Property C100: recent data stay available. -/
namespace Verif.Retain
open Verif.Ring Verif.DataReq Verif.Search Verif.Session

/-! ### Specification vocabulary -/

/-- Timestamps of the payloads of a run that the buffer took, in order. -/
def taken (log : List Arrival) (r : Nat) : List Nat :=
  (log.filter (fun a => a.run = r ∧ a.stored = true)).map (·.ts)

/-- A number of payloads that every cleanup with limit fraction `lim` and removal fraction `rem` of a buffer of `n`
payloads leaves, whatever single precision arithmetic does. -/
def Kept (lim rem : ℚ) (n K : Nat) : Prop :=
  (K : ℚ) ≤ (1 - rem * (1 + 1 / 16777216) ^ 2) * (lim * n * (1 - 1 / 16777216) ^ 2)

/-- A number of payloads that may arrive between two cleanups without filling the buffer: it fits above the limit, and
below what a cleanup of a full buffer removes. -/
def Fits (lim rem : ℚ) (n R : Nat) : Prop :=
  lim * n * (1 + 1 / 16777216) ^ 2 + R ≤ n - 1 ∧ (R : ℚ) + 1 ≤ rem * (n - 1) * (1 - 1 / 16777216) ^ 2

/-! ### Arithmetic of the settings -/

theorem toPop_le {rnd : ℚ → ℚ} (hs : Conf.Single rnd) {pct : ℚ} (h0 : 0 ≤ pct) (occ : Nat) :
    (Cleanup.toPopOf rnd pct occ : ℚ) ≤ pct * occ * (1 + 1 / 16777216) ^ 2 := by
  have ho : (0 : ℚ) ≤ occ := Nat.cast_nonneg _
  have p1 := hs.nonneg ho
  have p2 := hs.nonneg (mul_nonneg h0 p1)
  have e1 := hs.hi _ ho
  have e2 := hs.hi _ (mul_nonneg h0 p1)
  have e3 : pct * rnd occ ≤ pct * (occ * (1 + 1 / 16777216)) := mul_le_mul_of_nonneg_left e1 h0
  have e4 := Nat.floor_le p2
  rw [Cleanup.toPopOf]
  nlinarith

theorem toPop_ge {rnd : ℚ → ℚ} (hs : Conf.Single rnd) {pct : ℚ} (h0 : 0 ≤ pct) (occ : Nat) :
    pct * occ * (1 - 1 / 16777216) ^ 2 < Cleanup.toPopOf rnd pct occ + 1 := by
  have ho : (0 : ℚ) ≤ occ := Nat.cast_nonneg _
  have p1 := hs.nonneg ho
  have e1 := hs.lo _ ho
  have e2 := hs.lo _ (mul_nonneg h0 p1)
  have e3 : pct * (occ * (1 - 1 / 16777216)) ≤ pct * rnd occ := mul_le_mul_of_nonneg_left e1 h0
  have e4 := Nat.lt_floor_add_one (rnd (pct * rnd occ))
  rw [Cleanup.toPopOf]
  nlinarith

/-- What is left of `occ` payloads, for all the occupancies at which a cleanup does something. -/
theorem kept_of {rnd : ℚ → ℚ} (hs : Conf.Single rnd) {lim rem : ℚ} (h0 : 0 ≤ lim) (h1 : 0 ≤ rem)
    (h2 : rem ≤ 1 - 1 / 4194304) {n K : Nat} (hk : Kept lim rem n K) (occ : Nat)
    (ho : Conf.limitOf rnd lim n < occ) : K + Cleanup.toPopOf rnd rem occ ≤ occ := by
  have hl := toPop_ge hs h0 n
  have hu := toPop_le hs h1 occ
  have ho' : (Cleanup.toPopOf rnd lim n : ℚ) + 1 ≤ occ := by exact_mod_cast ho
  have hf : (0 : ℚ) ≤ 1 - rem * (1 + 1 / 16777216) ^ 2 := by nlinarith
  have hm : (1 - rem * (1 + 1 / 16777216) ^ 2) * (lim * n * (1 - 1 / 16777216) ^ 2) ≤
      (1 - rem * (1 + 1 / 16777216) ^ 2) * occ := mul_le_mul_of_nonneg_left (by linarith) hf
  unfold Kept at hk
  have : ((K + Cleanup.toPopOf rnd rem occ : ℕ) : ℚ) ≤ occ := by push_cast; nlinarith
  exact_mod_cast this

/-- The limit leaves room for a burst. -/
theorem limit_of {rnd : ℚ → ℚ} (hs : Conf.Single rnd) {lim rem : ℚ} (h0 : 0 ≤ lim) {n R : Nat} (hn : 2 ≤ n)
    (hf : Fits lim rem n R) : Conf.limitOf rnd lim n + R ≤ n - 1 := by
  have := toPop_le hs h0 n
  have h1 := hf.1
  have hc : ((n - 1 : ℕ) : ℚ) = (n : ℚ) - 1 := by rw [Nat.cast_sub (by omega)]; simp
  have : ((Cleanup.toPopOf rnd lim n + R : ℕ) : ℚ) ≤ (n - 1 : ℕ) := by rw [hc]; push_cast; linarith
  exact_mod_cast this

/-- A cleanup makes room for a burst. -/
theorem room_of {rnd : ℚ → ℚ} (hs : Conf.Single rnd) {lim rem : ℚ} (h1 : 0 ≤ rem)
    (h2 : rem ≤ 1) {n R : Nat} (hn : 2 ≤ n) (hf : Fits lim rem n R) (occ : Nat) (ho : occ < n) :
    occ + R ≤ n - 1 + Cleanup.toPopOf rnd rem occ := by
  have hl := toPop_ge hs h1 occ
  have h3 := hf.2
  have hc : ((n - 1 : ℕ) : ℚ) = (n : ℚ) - 1 := by rw [Nat.cast_sub (by omega)]; simp
  have ho' : (occ : ℚ) ≤ n - 1 := by rw [← hc]; exact_mod_cast (by omega : occ ≤ n - 1)
  have hd : (0 : ℚ) ≤ (n - 1 - occ) * (1 - rem * (1 - 1 / 16777216) ^ 2) := by
    apply mul_nonneg (by linarith)
    nlinarith
  have : ((occ + R : ℕ) : ℚ) < ((n - 1 + Cleanup.toPopOf rnd rem occ : ℕ) : ℚ) + 1 := by
    push_cast [hc]; nlinarith
  have : occ + R < n - 1 + Cleanup.toPopOf rnd rem occ + 1 := by exact_mod_cast this
  omega

/-! ### Invariant -/

theorem taken_append (log : List Arrival) (a : Arrival) (r : Nat) :
    taken (log ++ [a]) r = taken log r ++ (if a.run = r ∧ a.stored = true then [a.ts] else []) := by
  by_cases h : a.run = r ∧ a.stored = true <;> simp [taken, List.filter_append, h]

theorem mem_taken {log : List Arrival} {r t : Nat} (h : t ∈ taken log r) : ∃ a ∈ log, a.run = r ∧ a.ts = t := by
  simp only [taken, List.mem_map, List.mem_filter, decide_eq_true_eq] at h
  obtain ⟨a, ⟨h1, h2, -⟩, h3⟩ := h
  exact ⟨a, h1, h2, h3⟩

/-- Every cleanup that does something leaves `K` payloads. -/
def Keeps (rnd : ℚ → ℚ) (h : Conf.Handler) (K : Nat) : Prop :=
  ∀ occ, h.limitSize < occ → K + Cleanup.toPopOf rnd h.sizePct occ ≤ occ

/-- After a cleanup there is room for `R` payloads. -/
def Roomy (rnd : ℚ → ℚ) (h : Conf.Handler) (n R : Nat) : Prop :=
  h.limitSize + R ≤ n - 1 ∧ ∀ occ, occ < n → occ + R ≤ n - 1 + Cleanup.toPopOf rnd h.sizePct occ

structure Inv (rnd : ℚ → ℚ) (h : Conf.Handler) (c : Cfg) (n K R : Nat) (x : St) (l : List Nat) : Prop where
  reach : Session.Reach c n x.s
  repr : Repr x.s.p.q l
  size : x.s.p.q.size = n
  idle : x.s.phase = .idle → l = []
  suf : l <:+ taken x.s.log x.s.run
  keep : x.s.phase ≠ .idle → K ≤ l.length ∨ l = taken x.s.log x.s.run
  past : ∀ a ∈ x.s.log, a.run ≤ x.s.run
  le : x.since ≤ x.worst
  room : Roomy rnd h n R → x.held = false → x.worst ≤ R → (∀ a ∈ x.s.log, a.ts < noRecording) →
    l.length + R ≤ n - 1 + x.since ∧ ∀ a ∈ x.s.log, a.stored = true

theorem inv_step {rnd : ℚ → ℚ} {h : Conf.Handler} {c : Cfg} {n K R : Nat} (hset : Keeps rnd h K)
    {x x' : St} {l : List Nat} (inv : Inv rnd h c n K R x l) (st : Step rnd h c x x') : ∃ l', Inv rnd h c n K R x' l' := by
  cases st with
  | start hp =>
    have hl := inv.idle hp
    subst hl
    have hempty : taken x.s.log (x.s.run + 1) = [] := by
      simp only [taken, List.map_eq_nil_iff, List.filter_eq_nil_iff, decide_eq_true_eq]
      intro a ha
      have := inv.past a ha
      omega
    refine ⟨[], .step _ _ inv.reach (.start _ hp), inv.repr, inv.size, fun _ => rfl, List.nil_suffix, ?_, ?_,
      Nat.zero_le _, ?_⟩
    · intro _; right; exact hempty.symm
    · intro a ha; have := inv.past a ha; simp only [startCmd]; omega
    · intro hro h1 h2 h3
      have := (inv.room hro h1 h2 h3).2
      exact ⟨by have := hro.1; simp; omega, this⟩
  | receive s' t hp he =>
    obtain ⟨p, b, -, rfl, hsz, hcase⟩ := receive_cases inv.repr he
    have hreach := Session.Reach.step _ _ inv.reach (.receive _ _ t hp he)
    have past : ∀ a ∈ x.s.log ++ [⟨x.s.run, t, b⟩], a.run ≤ x.s.run := by
      intro a ha
      rcases List.mem_append.1 ha with ha | ha
      · exact inv.past a ha
      · simp at ha; subst ha; exact Nat.le_refl _
    rcases hcase with ⟨rfl, hrep, -⟩ | ⟨rfl, hrep⟩
    · have ht : taken (x.s.log ++ [⟨x.s.run, t, true⟩]) x.s.run = taken x.s.log x.s.run ++ [t] := by
        rw [taken_append]; simp
      refine ⟨l ++ [t], hreach, hrep, hsz.trans inv.size, fun hi => absurd hi hp, ?_, ?_, past, ?_, ?_⟩
      · show _ <:+ taken (x.s.log ++ [_]) x.s.run
        rw [ht]
        obtain ⟨u, hu⟩ := inv.suf
        exact ⟨u, by rw [← hu, List.append_assoc]⟩
      · intro _
        show _ ∨ _ = taken (x.s.log ++ [_]) x.s.run
        rw [ht]
        rcases inv.keep hp with h1 | h1
        · left; simp; omega
        · right; rw [h1]
      · simp only [arrived]; omega
      · intro hro h1 h2 h3
        simp only [arrived] at h1 h2 h3 ⊢
        obtain ⟨g1, g2⟩ := inv.room hro h1 (by omega) (fun a ha => h3 a (by simp [ha]))
        refine ⟨by simp; omega, ?_⟩
        intro a ha
        rcases List.mem_append.1 ha with ha | ha
        · exact g2 a ha
        · simp at ha; subst ha; rfl
    · have ht : taken (x.s.log ++ [⟨x.s.run, t, false⟩]) x.s.run = taken x.s.log x.s.run := by
        rw [taken_append]; simp
      refine ⟨l, hreach, hrep, hsz.trans inv.size, fun hi => absurd hi hp, ?_, ?_, past, ?_, ?_⟩
      · show _ <:+ taken (x.s.log ++ [_]) x.s.run
        rw [ht]; exact inv.suf
      · intro _
        show _ ∨ _ = taken (x.s.log ++ [_]) x.s.run
        rw [ht]; exact inv.keep hp
      · simp only [arrived]; omega
      · intro hro h1 h2 h3
        exfalso
        simp only [arrived] at h1 h2 h3
        obtain ⟨g1, -⟩ := inv.room hro h1 (by omega) (fun a ha => h3 a (by simp [ha]))
        -- a payload is only refused by a full buffer
        have hfull : ¬ l.length < n - 1 := by
          intro hlt
          obtain ⟨q1, e1, -⟩ := write_ok inv.repr t (by rw [inv.size]; exact hlt)
          simp only [Session.receive, Pipeline.receive, e1, Outcome.bind_ok] at he
          injection he with he
          have := congrArg (fun s => s.log.getLast?) he
          simp at this
        omega
  | clean s' next hp he =>
    have hne : x.s.phase ≠ .idle := by rcases hp with hp | hp <;> simp [hp]
    have hreach := Session.Reach.step _ _ inv.reach (.clean _ _ _ _ next hp he)
    cases hc : Cleanup.cleanup id h.limitSize (Cleanup.toPopOf rnd h.sizePct x.s.p.q.occupancy) next x.s.p.q
        x.s.p.ck.reg with
    | ub w => simp [pass, Session.clean, Pipeline.clean, hc] at he
    | throws w => simp [pass, Session.clean, Pipeline.clean, hc] at he
    | ok r =>
      simp only [pass, Session.clean, Pipeline.clean, hc, Outcome.bind_ok] at he
      injection he with he; subst he
      obtain ⟨g1, g2, g3, g4, -, g6, -, -, g9⟩ := Cleanup.C21_cleanup_prefix id _ _ next _ l inv.repr _ r hc
      rw [inv.repr.occ] at g2 g6
      have hlen := inv.repr.len
      rw [inv.size] at hlen
      refine ⟨l.drop r.popped, hreach, g1, g9.trans inv.size, fun hi => absurd hi hne,
        (List.drop_suffix _ _).trans inv.suf, ?_, inv.past, Nat.zero_le _, ?_⟩
      · intro _
        show K ≤ (l.drop r.popped).length ∨ l.drop r.popped = _
        rcases Nat.lt_or_ge h.limitSize l.length with hlim | hlim
        · left
          have := hset _ hlim
          rw [List.length_drop]; omega
        · rw [(g4 hlim).1]; exact inv.keep hne
      · intro hro h1 h2 h3
        simp only [passed, Bool.or_eq_false_iff, bne_eq_false_iff_eq] at h1 h2 h3 ⊢
        obtain ⟨g7, g8⟩ := inv.room hro h1.1 h2 h3
        refine ⟨?_, g8⟩
        rw [List.length_drop]
        rcases Nat.lt_or_ge h.limitSize l.length with hlim | hlim
        · have hk : r.popped = Cleanup.toPopOf rnd h.sizePct l.length := by
            rcases g6 hlim with g6 | ⟨a, ha, hna⟩
            · exact g6
            · exfalso
              obtain ⟨b, hb, -, hbt⟩ := mem_taken (inv.suf.subset (List.mem_of_getElem? ha))
              have := h3 b hb
              rw [h1.2] at hna
              simp only [id] at hna
              omega
          have := hro.2 l.length hlen
          omega
        · have := hro.1; omega
  | finish s' hp he =>
    obtain ⟨q', e, hr, hs, -⟩ := flush_ok inv.repr
    have hreach := Session.Reach.step _ _ inv.reach (.finish _ _ hp he)
    simp only [Session.finish, e, Outcome.bind_ok] at he
    injection he with he; subst he
    refine ⟨[], hreach, hr, hs.trans inv.size, fun _ => rfl, List.nil_suffix, by simp, inv.past, inv.le, ?_⟩
    intro hro h1 h2 h3
    exact ⟨by have := hro.1; simp; omega, (inv.room hro h1 h2 h3).2⟩
  | other s' st hd hl hr hi =>
    have hreach := Session.Reach.step _ _ inv.reach st
    refine ⟨l, hreach, by rw [hd]; exact inv.repr, by rw [hd]; exact inv.size, fun hp => inv.idle (hi.1 hp), ?_, ?_, ?_,
      inv.le, ?_⟩
    · show _ <:+ taken s'.log s'.run
      rw [hl, hr]; exact inv.suf
    · intro hp
      show _ ∨ _ = taken s'.log s'.run
      rw [hl, hr]
      exact inv.keep (fun hx => hp (hi.2 hx))
    · show ∀ a ∈ s'.log, a.run ≤ s'.run
      rw [hl, hr]; exact inv.past
    · intro hro h1 h2 h3
      simp only [hl] at h3 ⊢
      exact inv.room hro h1 h2 h3

theorem inv_reach {rnd : ℚ → ℚ} {h : Conf.Handler} {c : Cfg} {n K R : Nat} (hn : 2 ≤ n) (hset : Keeps rnd h K)
    {x : St} (hx : Reach rnd h c n x) : ∃ l, Inv rnd h c n K R x l := by
  induction hx with
  | init =>
    refine ⟨[], .init, repr_init n hn, rfl, fun _ => rfl, List.nil_suffix, by simp [St.init, Session.St.init],
      by simp [St.init, Session.St.init], Nat.le_refl _, ?_⟩
    intro hro _ _ _
    exact ⟨by have := hro.1; simp [St.init]; omega, by simp [St.init, Session.St.init]⟩
  | step x x' _ st ih =>
    obtain ⟨l, inv⟩ := ih
    exact inv_step hset inv st

/-- An accepted configuration gives the settings what the fractions promise. -/
theorem keeps_of {rnd : ℚ → ℚ} (hs : Conf.Single rnd) (h : Conf.Handler) (p : Conf.Params) {n K : Nat}
    (hok : Cleanup.Accepted p.limitPct p.sizePct) (hcap : p.capacity = n) (hmax : p.sizePct ≤ 1 - 1 / 4194304)
    (hk : Kept p.limitPct p.sizePct n K) : Keeps rnd (Conf.conf rnd h p).1 K := by
  obtain ⟨-, c1, c2⟩ := Conf.C72_accepted_not_reported rnd h p hok
  obtain ⟨h1, h2, h3, h4⟩ := hok
  rw [hcap] at c1
  intro occ ho
  rw [c1] at ho; rw [c2]
  exact kept_of hs h1 h3 hmax hk occ ho

theorem roomy_of {rnd : ℚ → ℚ} (hs : Conf.Single rnd) (h : Conf.Handler) (p : Conf.Params) {n R : Nat} (hn : 2 ≤ n)
    (hok : Cleanup.Accepted p.limitPct p.sizePct) (hcap : p.capacity = n)
    (hf : Fits p.limitPct p.sizePct n R) : Roomy rnd (Conf.conf rnd h p).1 n R := by
  obtain ⟨-, c1, c2⟩ := Conf.C72_accepted_not_reported rnd h p hok
  obtain ⟨h1, h2, h3, h4⟩ := hok
  rw [hcap] at c1
  refine ⟨by rw [c1]; exact limit_of hs h1 hn hf, ?_⟩
  intro occ ho
  rw [c2]
  exact room_of hs h3 h4 hn hf occ ho

theorem kept_zero {lim rem : ℚ} (h0 : 0 ≤ lim) (h1 : rem ≤ 1 - 1 / 4194304) (n : Nat) : Kept lim rem n 0 := by
  unfold Kept
  have hn : (0 : ℚ) ≤ n := Nat.cast_nonneg _
  have : (0 : ℚ) ≤ lim * n := mul_nonneg h0 hn
  have h2 : (0 : ℚ) ≤ 1 - rem * (1 + 1 / 16777216) ^ 2 := by nlinarith
  push_cast
  exact mul_nonneg h2 (by positivity)

theorem taken_all {log : List Arrival} {r : Nat} (h : AllStored log r) : taken log r = runLog log r := by
  unfold taken runLog
  congr 1
  apply List.filter_congr
  intro a ha
  by_cases hr : a.run = r
  · simp [hr, h a ha hr]
  · simp [hr]

/-! ### Concrete links -/

/-- A small buffer of 8 slots: limit one half, half of the contents removed. -/
def half : Conf.Params := ⟨1/2, 1/2, 8, false, "a"⟩

def halfHandler : Conf.Handler := (Conf.conf id Conf.Handler.new half).1

theorem half_ok : Cleanup.Accepted half.limitPct half.sizePct := by
  constructor <;> norm_num [half]

theorem half_limit : halfHandler.limitSize = 4 := by
  rw [halfHandler, (Conf.C72_accepted_not_reported id Conf.Handler.new half half_ok).2.1]
  norm_num [Conf.limitOf, half]

theorem half_size : halfHandler.sizePct = 1/2 :=
  (Conf.C72_accepted_not_reported id Conf.Handler.new half half_ok).2.2

theorem half_kept : Kept half.limitPct half.sizePct 8 1 := by norm_num [Kept, half]
theorem half_fits : Fits half.limitPct half.sizePct 8 2 := by constructor <;> norm_num [half]

theorem wib_link8 : Link wib 8 := ⟨by decide, by decide, by decide, Or.inr rfl, by decide, by decide⟩

theorem passes {s s' : Session.St} {occ k next : Nat} (ho : s.p.q.occupancy = occ) (hk : occ / 2 = k)
    (he : Session.clean s 4 k next = .ok s') : pass id halfHandler s next = .ok s' := by
  rw [pass, half_limit, half_size, ho]
  have : ⌊(1/2 : ℚ) * occ⌋₊ = occ / 2 := by
    rw [Nat.floor_eq_iff (by positivity)]
    have h1 : 2 * (occ / 2) ≤ occ := Nat.mul_div_le occ 2
    have h2 : occ < 2 * (occ / 2) + 2 := by omega
    have h1' : (2 : ℚ) * (occ / 2 : ℕ) ≤ occ := by exact_mod_cast h1
    have h2' : (occ : ℚ) < 2 * (occ / 2 : ℕ) + 2 := by exact_mod_cast h2
    constructor <;> linarith
  simp only [Cleanup.toPopOf, id]
  rw [this, hk]; exact he

abbrev HReach := Reach id halfHandler wib 8

theorem recvStep {x : St} {t : Nat} {p : Pipeline.St} {b : Bool} (hx : HReach x) (hp : x.s.phase ≠ .idle)
    (he : Pipeline.receive 300 x.s.p t = .ok (p, b)) :
    HReach (arrived x { x.s with p := p, log := x.s.log ++ [⟨x.s.run, t, b⟩] }) :=
  .step _ _ hx (.receive _ _ t hp (recv (c := wib) he))

/-- Six payloads, a cleanup pass after every two; the third pass finds six and removes three. -/
theorem demo_run : ∃ x, HReach x ∧ x.s.phase = .running ∧ x.s.run = 1 ∧ x.worst = 2 ∧ x.held = false ∧
    runLog x.s.log 1 = [300, 600, 900, 1200, 1500, 1800] ∧ (∀ a ∈ x.s.log, a.ts < 2000) ∧ x.s.log.length = 6 ∧
    x.s.p.q.visit 8 x.s.p.q.begin = .ok ([1200, 1500, 1800], endIdx) := by
  have r0 : HReach _ := .init
  have r1 : HReach _ := .step _ _ r0 (.start _ rfl)
  have r2 := recvStep (t := 300) r1 (by simp [startCmd]) (Pipeline.receive_in_step rfl (by decide) rfl)
  have r3 := recvStep (t := 600) r2 (by simp [arrived, startCmd]) (Pipeline.receive_in_step rfl (by decide) rfl)
  have r4 : HReach _ := .step _ _ r3 (.clean _ _ noRecording (Or.inl rfl) (passes (occ := 2) (k := 1) rfl rfl rfl))
  have r5 := recvStep (t := 900) r4 (by simp [passed, arrived, startCmd]) (Pipeline.receive_in_step rfl (by decide) rfl)
  have r6 := recvStep (t := 1200) r5 (by simp [passed, arrived, startCmd]) (Pipeline.receive_in_step rfl (by decide) rfl)
  have r7 : HReach _ := .step _ _ r6 (.clean _ _ noRecording (Or.inl rfl) (passes (occ := 4) (k := 2) rfl rfl rfl))
  have r8 := recvStep (t := 1500) r7 (by simp [passed, arrived, startCmd]) (Pipeline.receive_in_step rfl (by decide) rfl)
  have r9 := recvStep (t := 1800) r8 (by simp [passed, arrived, startCmd]) (Pipeline.receive_in_step rfl (by decide) rfl)
  have r10 : HReach _ := .step _ _ r9 (.clean _ _ noRecording (Or.inl rfl) (passes (occ := 6) (k := 3) rfl rfl rfl))
  refine ⟨_, r10, rfl, rfl, rfl, rfl, rfl, ?_, rfl, rfl⟩
  simp [passed, arrived, startCmd, St.init, Session.St.init]

/-! ### Property C100 -/

/-- **C100 (retention)** Configure a link with accepted fractions `lim` and `rem` (and the true buffer size). In every
execution, whatever arrives and whenever cleanups, requests and recordings happen: during a run the buffer holds the
last `K` payloads it took in that run, or all of them if fewer, for every `K` up to about `(1 - rem) * lim * n`. -/
theorem C100_retained (rnd : ℚ → ℚ) (hs : Conf.Single rnd) (h : Conf.Handler) (p : Conf.Params) (c : Cfg) (n K : Nat)
    (hn : 2 ≤ n) (hok : Cleanup.Accepted p.limitPct p.sizePct) (hcap : p.capacity = n)
    (hmax : p.sizePct ≤ 1 - 1 / 4194304) (hk : Kept p.limitPct p.sizePct n K) (x : St)
    (hx : Reach rnd (Conf.conf rnd h p).1 c n x) (hp : x.s.phase ≠ .idle) :
    ∃ l, Repr x.s.p.q l ∧ l <:+ taken x.s.log x.s.run ∧
      ∀ recent, recent <:+ taken x.s.log x.s.run → recent.length ≤ K → recent <:+ l := by
  obtain ⟨l, inv⟩ := inv_reach (R := 0) hn (keeps_of hs h p hok hcap hmax hk) hx
  refine ⟨l, inv.repr, inv.suf, ?_⟩
  intro recent h1 h2
  rcases inv.keep hp with h3 | h3
  · exact List.suffix_of_suffix_length_le h1 inv.suf (by omega)
  · rw [h3]; exact h1

/-- The default settings (half full, remove 80 %, 100000 payloads) keep 9990 payloads, those written by app_confgen.py
(80 % full, remove 10 %, for instance 500000 payloads) keep 359900. -/
example : Kept (1/2) (4/5) 100000 9990 ∧ Kept (4/5) (1/10) 500000 359900 := by
  constructor <;> norm_num [Kept]

example : ∃ x, HReach x ∧ x.s.phase ≠ .idle ∧ taken x.s.log x.s.run ≠ [] ∧ Conf.Single id ∧ half.capacity = 8 ∧
    half.sizePct ≤ 1 - 1 / 4194304 := by
  obtain ⟨x, h1, h2, h3, h4, h5, h6, h7, -⟩ := demo_run
  refine ⟨x, h1, by simp [h2], ?_, Conf.single_id, rfl, by norm_num [half]⟩
  rw [taken_all, h3, h6]
  · simp
  · intro a ha _
    exact (inv_reach (K := 0) (R := 2) (by decide)
      (keeps_of Conf.single_id Conf.Handler.new half half_ok rfl (by norm_num [half])
        (kept_zero half_ok.1 (by norm_num [half]) 8)) h1).elim fun l inv =>
      (inv.room (roomy_of Conf.single_id Conf.Handler.new half (by decide) half_ok rfl half_fits) h5 (by omega)
        (fun a ha => by have := h7 a ha; simp only [noRecording]; omega)).2 a ha

/-- **C100 (nothing refused)** If moreover no more than `R` payloads arrive between two cleanup passes, where `R` fits above
the limit and below the removed fraction, and no cleanup met a recording, then no payload is refused, in any
run. -/
theorem C100_nothing_refused_partial (rnd : ℚ → ℚ) (hs : Conf.Single rnd) (h : Conf.Handler) (p : Conf.Params) (c : Cfg)
    (n R : Nat) (hn : 2 ≤ n) (hok : Cleanup.Accepted p.limitPct p.sizePct) (hcap : p.capacity = n)
    (hmax : p.sizePct ≤ 1 - 1 / 4194304) (hf : Fits p.limitPct p.sizePct n R) (x : St)
    (hx : Reach rnd (Conf.conf rnd h p).1 c n x) (hw : x.worst ≤ R) (hh : x.held = false)
    (ht : ∀ a ∈ x.s.log, a.ts < 18446744073709551615) : ∀ a ∈ x.s.log, a.stored = true := by
  obtain ⟨l, inv⟩ := inv_reach (K := 0) (R := R) hn
    (keeps_of hs h p hok hcap hmax (kept_zero hok.1 hmax n)) hx
  exact (inv.room (roomy_of hs h p hn hok hcap hf) hh hw ht).2

/-- The default settings allow 49990 payloads between two passes, those of app_confgen.py for 500000 payloads 49990. -/
example : Fits (1/2) (4/5) 100000 49990 ∧ Fits (4/5) (1/10) 500000 49990 := by
  refine ⟨⟨?_, ?_⟩, ?_, ?_⟩ <;> norm_num

example : ∃ x, HReach x ∧ x.worst ≤ 2 ∧ x.held = false ∧ (∀ a ∈ x.s.log, a.ts < 18446744073709551615) ∧
    x.s.log.length = 6 := by
  obtain ⟨x, h1, h2, h3, h4, h5, h6, h7, h8, -⟩ := demo_run
  exact ⟨x, h1, by omega, h5, fun a ha => by have := h7 a ha; omega, h8⟩

/-- **C100 needs the bound on bursts**: eight payloads arrive before the first cleanup pass, the last one is refused. -/
theorem C100_burst_counterexample : ∃ x, HReach x ∧ x.held = false ∧ x.worst = 8 ∧
    ∃ a ∈ x.s.log, a.ts = 2400 ∧ a.stored = false := by
  have r0 : HReach _ := .init
  have r1 : HReach _ := .step _ _ r0 (.start _ rfl)
  have r2 := recvStep (t := 300) r1 (by simp [startCmd]) (Pipeline.receive_in_step rfl (by decide) rfl)
  have r3 := recvStep (t := 600) r2 (by simp [arrived, startCmd]) (Pipeline.receive_in_step rfl (by decide) rfl)
  have r4 := recvStep (t := 900) r3 (by simp [arrived, startCmd]) (Pipeline.receive_in_step rfl (by decide) rfl)
  have r5 := recvStep (t := 1200) r4 (by simp [arrived, startCmd]) (Pipeline.receive_in_step rfl (by decide) rfl)
  have r6 := recvStep (t := 1500) r5 (by simp [arrived, startCmd]) (Pipeline.receive_in_step rfl (by decide) rfl)
  have r7 := recvStep (t := 1800) r6 (by simp [arrived, startCmd]) (Pipeline.receive_in_step rfl (by decide) rfl)
  have r8 := recvStep (t := 2100) r7 (by simp [arrived, startCmd]) (Pipeline.receive_in_step rfl (by decide) rfl)
  have r9 := recvStep (t := 2400) r8 (by simp [arrived, startCmd]) (Pipeline.receive_in_step rfl (by decide) rfl)
  exact ⟨_, r9, rfl, rfl, ⟨1, 2400, false⟩, by simp [arrived, startCmd, St.init, Session.St.init], rfl, rfl⟩

/-- **C100 is false while recording**: a cleanup pass follows every payload, but the recording position is still at the
first payload (the file is slow, or the recording waits for a cleanup to end), so nothing may be removed. The eighth
payload is refused, and then [2400, 2500) is asked for: although payload 2400 was received and a later one too, the answer
comes without error bit and without a frame. -/
theorem C100_recording_counterexample : ∃ x, HReach x ∧ x.worst = 1 ∧ x.s.phase = .running ∧
    Steady 300 (runLog x.s.log 1) ∧ (∃ a ∈ x.s.log, a.ts = 2400 ∧ a.stored = false) ∧
    ∃ r fr, answer wib x.s ⟨1, 2450, 2400, 2500, 5, 0⟩ = .ok r ∧ r.fragment = some fr ∧
      fr.header.dataNotFound = false ∧ fr.frames = [] ∧ InWindow 25 12 (runLog x.s.log 1) 2400 2500 (2400, 0) := by
  have r0 : HReach _ := .init
  have r1 : HReach _ := .step _ _ r0 (.start _ rfl)
  have r2 := recvStep (t := 300) r1 (by simp [startCmd]) (Pipeline.receive_in_step rfl (by decide) rfl)
  have s2 : HReach _ := .step _ _ r2 (.clean _ _ 300 (Or.inl rfl) (passes (occ := 1) (k := 0) rfl rfl rfl))
  have r3 := recvStep (t := 600) s2 (by simp [passed, arrived, startCmd]) (Pipeline.receive_in_step rfl (by decide) rfl)
  have s3 : HReach _ := .step _ _ r3 (.clean _ _ 300 (Or.inl rfl) (passes (occ := 2) (k := 1) rfl rfl rfl))
  have r4 := recvStep (t := 900) s3 (by simp [passed, arrived, startCmd]) (Pipeline.receive_in_step rfl (by decide) rfl)
  have s4 : HReach _ := .step _ _ r4 (.clean _ _ 300 (Or.inl rfl) (passes (occ := 3) (k := 1) rfl rfl rfl))
  have r5 := recvStep (t := 1200) s4 (by simp [passed, arrived, startCmd]) (Pipeline.receive_in_step rfl (by decide) rfl)
  have s5 : HReach _ := .step _ _ r5 (.clean _ _ 300 (Or.inl rfl) (passes (occ := 4) (k := 2) rfl rfl rfl))
  have r6 := recvStep (t := 1500) s5 (by simp [passed, arrived, startCmd]) (Pipeline.receive_in_step rfl (by decide) rfl)
  have s6 : HReach _ := .step _ _ r6 (.clean _ _ 300 (Or.inl rfl) (passes (occ := 5) (k := 2) rfl rfl rfl))
  have r7 := recvStep (t := 1800) s6 (by simp [passed, arrived, startCmd]) (Pipeline.receive_in_step rfl (by decide) rfl)
  have s7 : HReach _ := .step _ _ r7 (.clean _ _ 300 (Or.inl rfl) (passes (occ := 6) (k := 3) rfl rfl rfl))
  have r8 := recvStep (t := 2100) s7 (by simp [passed, arrived, startCmd]) (Pipeline.receive_in_step rfl (by decide) rfl)
  have s8 : HReach _ := .step _ _ r8 (.clean _ _ 300 (Or.inl rfl) (passes (occ := 7) (k := 3) rfl rfl rfl))
  have r9 := recvStep (t := 2400) s8 (by simp [passed, arrived, startCmd]) (Pipeline.receive_in_step rfl (by decide) rfl)
  have s9 : HReach _ := .step _ _ r9 (.clean _ _ 1500 (Or.inl rfl) (passes (occ := 7) (k := 3) rfl rfl rfl))
  have r10 := recvStep (t := 2700) s9 (by simp [passed, arrived, startCmd]) (Pipeline.receive_in_step rfl (by decide) rfl)
  have s10 : HReach _ := .step _ _ r10 (.clean _ _ 1500 (Or.inl rfl) (passes (occ := 5) (k := 2) rfl rfl rfl))
  have r11 := recvStep (t := 3000) s10 (by simp [passed, arrived, startCmd]) (Pipeline.receive_in_step rfl (by decide) rfl)
  refine ⟨_, r11, rfl, rfl, ?_, ⟨⟨1, 2400, false⟩, ?_, rfl, rfl⟩, _, _, rfl, rfl, rfl, rfl, ?_⟩
  · simp [Steady, runLog, passed, arrived, startCmd, St.init, Session.St.init]
  · simp [passed, arrived, startCmd, St.init, Session.St.init]
  · simp [InWindow, runLog, passed, arrived, startCmd, St.init, Session.St.init]

theorem suffix_head_le {step a b : Nat} {l m : List Nat} (hm : Steady step m) (h : l <:+ m) (ha : m.head? = some a)
    (hb : l.head? = some b) : a ≤ b := by
  obtain ⟨u, rfl⟩ := h
  cases u with
  | nil => simp at ha; rw [ha] at hb; injection hb with hb; omega
  | cons y u =>
    simp at ha; subst ha
    cases l with
    | nil => simp at hb
    | cons z l =>
      simp at hb; subst hb
      have := List.pairwise_cons.1 hm.1
      have := this.1 z (by simp)
      omega

/-- **C100 (requests)** Under these conditions, while the payloads of the run go forward in time, a request whose window
lies within the last `K` payloads received (whichever of its ends comes first) is answered at its first evaluation, without the error bit and
with exactly the frames of the window. -/
theorem C100_recent_available_partial (rnd : ℚ → ℚ) (hs : Conf.Single rnd) (h : Conf.Handler) (p : Conf.Params) (c : Cfg)
    (n K R : Nat) (hc : Link c n) (hok : Cleanup.Accepted p.limitPct p.sizePct) (hcap : p.capacity = n)
    (hmax : p.sizePct ≤ 1 - 1 / 4194304) (hk : Kept p.limitPct p.sizePct n K)
    (hf : Fits p.limitPct p.sizePct n R) (x : St)
    (hx : Reach rnd (Conf.conf rnd h p).1 c n x) (hp : x.s.phase ≠ .idle) (hw : x.worst ≤ R) (hh : x.held = false)
    (ht : ∀ a ∈ x.s.log, a.ts < 18446744073709551615)
    (hst : Steady (c.tick * c.nf) (runLog x.s.log x.s.run)) (recent : List Nat)
    (hr : recent <:+ runLog x.s.log x.s.run) (hl : recent.length ≤ K) (a z : Nat) (ha : recent.head? = some a)
    (hz : recent.getLast? = some z) (dr : Request) (h1 : a ≤ dr.wBegin) (h2 : dr.wBegin ≤ z)
    (h3 : dr.wEnd ≤ z) :
    ∃ r fr, answer c x.s dr = .ok r ∧ r.fragment = some fr ∧ fr.header.dataNotFound = false ∧
      ∀ f, f ∈ fr.frames ↔ InWindow c.tick c.nf (runLog x.s.log x.s.run) dr.wBegin dr.wEnd f := by
  obtain ⟨l, inv⟩ := inv_reach (K := K) (R := R) hc.size (keeps_of hs h p hok hcap hmax hk) hx
  have hall : AllStored x.s.log x.s.run := fun b hb _ =>
    (inv.room (roomy_of hs h p hc.size hok hcap hf) hh hw ht).2 b hb
  have htk := taken_all hall
  obtain ⟨l', hl', hsuf', hav⟩ := C70_available_partial c n hc x.s inv.reach hall hst
  have hll := repr_unique hl' inv.repr
  subst hll
  have hrl : recent <:+ l' := by
    rcases inv.keep hp with h4 | h4
    · exact List.suffix_of_suffix_length_le hr hsuf' (by omega)
    · rw [h4, htk]; exact hr
  have hne : l' ≠ [] := by
    rintro rfl
    have := List.suffix_nil.1 hrl
    subst this; simp at ha
  obtain ⟨b, hb⟩ : ∃ b, l'.head? = some b := by
    cases l' with
    | nil => exact absurd rfl hne
    | cons b _ => exact ⟨b, rfl⟩
  have hba := suffix_head_le (steady_suffix hst hsuf') hrl hb ha
  have hlast : l'.getLast? = some z := by
    obtain ⟨u, rfl⟩ := hrl
    rw [List.getLast?_append, hz]; rfl
  exact hav dr b z hb hlast (by omega) h2 h3

example : ∃ x, HReach x ∧ x.s.phase ≠ .idle ∧ x.worst ≤ 2 ∧ x.held = false ∧
    Steady (wib.tick * wib.nf) (runLog x.s.log x.s.run) ∧ [1800] <:+ runLog x.s.log x.s.run ∧ [1800].length ≤ 1 := by
  obtain ⟨x, h1, h2, h3, h4, h5, h6, -⟩ := demo_run
  refine ⟨x, h1, by simp [h2], by omega, h5, ?_, ?_, by simp⟩
  · rw [h3, h6]; simp [Steady, wib]
  · rw [h3, h6]; exact ⟨[300, 600, 900, 1200, 1500], rfl⟩

end Verif.Retain
