import Verif.StopLinkModel
/-
C98: the stop command of a link returns.
-/
namespace Verif.StopLink

/-! ### Specification -/

/-- The stop command is under way. -/
def Stopping (s : St) : Prop := s.ph ≠ .idle ∧ s.ph ≠ .running

/-- All these post-processing threads are at rest. -/
def PpsOff (l : List (Pp × Nat)) : Prop := ∀ x ∈ l, x.1 = .off

/-- One of these post-processing threads missed its launch. -/
def PpsLost (l : List (Pp × Nat)) : Prop := ∃ x ∈ l, x.1 = .lost

/-- No worker thread missed its launch. -/
def NoneLost (s : St) : Prop :=
  s.rc ≠ .lost ∧ s.cl ≠ .lost ∧ s.cn ≠ .lost ∧ s.rq ≠ .lost ∧ s.ts ≠ .lost ∧ ¬ PpsLost s.pps

/-- What may happen next while the stop command is under way: a step of the link, an arrival, or nothing if the link
can do nothing. -/
def Next (nq : Nat) (s s' : St) : Prop :=
  Link nq s s' ∨ Arrive s s' ∨ (s' = s ∧ ∀ t, ¬ Link nq s t)

/-- Nothing of the link runs any more. -/
def AllOff (s : St) : Prop :=
  s.cl = .off ∧ s.wt = .off ∧ s.cn = .off ∧ s.rq = .off ∧ s.ts = .off ∧ PpsOff s.pps ∧
  s.running = 0 ∧ s.toPush = 0 ∧ s.toPark = 0

/-- Later states of a link being stopped. -/
inductive Later (nq : Nat) : St → St → Prop where
  | refl (s : St) : Later nq s s
  | link (s t u : St) (h : Later nq s t) (st : Link nq t u) : Later nq s u
  | arrive (s t u : St) (h : Later nq s t) (st : Arrive t u) : Later nq s u

/-! ### Invariant -/

/-- Position of the stop command. -/
def rank : Ph → Nat
  | .running => 0
  | .waitRec => 1
  | .waitClean => 2
  | .waitWaiter => 3
  | .joinPool => 4
  | .waitSync => 5
  | .waitCons => 6
  | .waitReq => 7
  | .flush => 8
  | .waitPost => 9
  | .idle => 10

def recIn : Rec → Nat
  | .inside _ => 1
  | _ => 0

def clFlag : Cl → Bool
  | .wait => true
  | .clean _ => true
  | _ => false

structure Inv (s : St) : Prop where
  mark : s.marker = true ↔ s.ph = .running
  hmark : s.hmarker = s.marker
  pmark : s.pmarker = false → 9 ≤ rank s.ph
  pmark' : s.ph = .waitPost → s.pmarker = false
  flag : s.flag = clFlag s.cl
  ins : s.inside = s.running + recIn s.rc
  rcOff : 2 ≤ rank s.ph → rank s.ph ≤ 9 → s.rc = .off
  clOff : 3 ≤ rank s.ph → s.cl = .off
  wtOff : 4 ≤ rank s.ph → s.wt = .off
  poolOn : rank s.ph ≤ 4 → s.pool = true
  poolOff : 5 ≤ rank s.ph → s.pool = false
  quiet : 5 ≤ rank s.ph → s.running = 0 ∧ s.toPush = 0 ∧ s.toPark = 0
  tsOff : 6 ≤ rank s.ph → s.ts = .off
  cnOff : 7 ≤ rank s.ph → s.cn = .off
  rqOff : 8 ≤ rank s.ph → s.rq = .off
  ppOff : 10 ≤ rank s.ph → PpsOff s.pps

theorem inv_init : Inv St.init := by
  constructor <;> simp [St.init, rank, clFlag, recIn, PpsOff]

theorem rank_idle {p : Ph} : 10 ≤ rank p ↔ p = .idle := by cases p <;> simp [rank]

theorem offer_mem {fs : List Bool} {l : List (Pp × Nat)} {x : Pp × Nat} (h : x ∈ offer fs l) : ∃ y ∈ l, y.1 = x.1 := by
  induction fs generalizing l with
  | nil => simp only [offer] at h; exact ⟨x, h, rfl⟩
  | cons f fs ih =>
    cases l with
    | nil => simp [offer] at h
    | cons y l =>
      simp only [offer, List.mem_cons] at h
      rcases h with h | h
      · exact ⟨y, by simp, by rw [h]⟩
      · obtain ⟨z, hz, e⟩ := ih h
        exact ⟨z, by simp [hz], e⟩

theorem mem_offer {fs : List Bool} {l : List (Pp × Nat)} {y : Pp × Nat} (h : y ∈ l) : ∃ x ∈ offer fs l, x.1 = y.1 := by
  induction fs generalizing l with
  | nil => exact ⟨y, h, rfl⟩
  | cons f fs ih =>
    cases l with
    | nil => simp at h
    | cons z l =>
      rcases List.mem_cons.1 h with h | h
      · subst h; exact ⟨(y.1, if f then y.2 else y.2 + 1), by simp [offer], rfl⟩
      · obtain ⟨x, hx, e⟩ := ih h
        exact ⟨x, by simp [offer, hx], e⟩

theorem inv_rec {s s' : St} (i : Inv s) (h : RecStep s s') : Inv s' := by
  obtain ⟨a1, a2, a3, a4, a5, a6, a7, a8, a9, a10, a11, a12, a13, a14, a15, a16⟩ := i
  cases h
  all_goals constructor <;> simp only [recEnter, recLeave] <;>
    first | assumption | (simp_all [recIn]; done) | (simp_all [recIn]; omega)

theorem inv_cl {s s' : St} (i : Inv s) (h : ClStep s s') : Inv s' := by
  obtain ⟨a1, a2, a3, a4, a5, a6, a7, a8, a9, a10, a11, a12, a13, a14, a15, a16⟩ := i
  cases h
  case begin n h hi => clear hi; constructor <;> first | assumption | (simp_all [clFlag]; done)
  all_goals constructor <;> first | assumption | (simp_all [clFlag]; done) | (simp_all [clFlag]; omega)

theorem inv_wt {s s' : St} (i : Inv s) (h : WtStep s s') : Inv s' := by
  obtain ⟨a1, a2, a3, a4, a5, a6, a7, a8, a9, a10, a11, a12, a13, a14, a15, a16⟩ := i
  cases h
  all_goals constructor <;> simp only [pass] <;> first | assumption | (simp_all; done)

theorem inv_pool {s s' : St} (i : Inv s) (h : PoolStep s s') : Inv s' := by
  obtain ⟨a1, a2, a3, a4, a5, a6, a7, a8, a9, a10, a11, a12, a13, a14, a15, a16⟩ := i
  cases h
  all_goals constructor <;> simp only [poolBegin, evalDone, evalNotYet] <;>
    first | assumption | (simp_all; done) | (simp_all; omega) |
      (intro h5; have := a12 h5; have := a11 h5; simp_all; omega)

theorem inv_cn {s s' : St} (i : Inv s) (h : CnStep s s') : Inv s' := by
  obtain ⟨a1, a2, a3, a4, a5, a6, a7, a8, a9, a10, a11, a12, a13, a14, a15, a16⟩ := i
  cases h
  case store full h =>
    constructor <;> simp only [stored] <;> first | assumption | (simp_all; done) | skip
    intro h10
    have := a14 (by omega)
    simp [h] at this
  all_goals constructor <;> first | assumption | (simp_all; done)

theorem inv_rq {nq : Nat} {s s' : St} (i : Inv s) (h : RqStep nq s s') : Inv s' := by
  obtain ⟨a1, a2, a3, a4, a5, a6, a7, a8, a9, a10, a11, a12, a13, a14, a15, a16⟩ := i
  cases h
  all_goals constructor <;> (try simp only [post]) <;> first | assumption | (simp_all; done)

theorem inv_ts {nq : Nat} {s s' : St} (i : Inv s) (h : TsStep nq s s') : Inv s' := by
  obtain ⟨a1, a2, a3, a4, a5, a6, a7, a8, a9, a10, a11, a12, a13, a14, a15, a16⟩ := i
  cases h
  all_goals constructor <;> (try simp only [post]) <;> first | assumption | (simp_all; done)

theorem inv_pp {s s' : St} (i : Inv s) (h : PpStep s s') : Inv s' := by
  obtain ⟨a1, a2, a3, a4, a5, a6, a7, a8, a9, a10, a11, a12, a13, a14, a15, a16⟩ := i
  cases h with
  | take a b q h =>
    constructor <;> first | assumption | skip
    intro h10
    have := a16 h10 (.loop, q + 1) (by simp [h])
    simp at this
  | processed a b q h =>
    constructor <;> first | assumption | skip
    intro h10
    have := a16 h10 (.busy, q) (by simp [h])
    simp at this
  | finish a b h hm =>
    constructor <;> first | assumption | skip
    intro h10
    have := a16 h10 (.loop, 0) (by simp [h])
    simp at this

theorem inv_stop {s s' : St} (i : Inv s) (h : StopStep s s') : Inv s' := by
  obtain ⟨a1, a2, a3, a4, a5, a6, a7, a8, a9, a10, a11, a12, a13, a14, a15, a16⟩ := i
  cases h
  case returned h ht =>
    have ht : PpsOff s.pps := ht
    constructor <;> simp_all [rank]
  all_goals constructor <;> simp_all [rank]

theorem inv_link {nq : Nat} {s s' : St} (i : Inv s) (h : Link nq s s') : Inv s' := by
  cases h with
  | rc h => exact inv_rec i h
  | cl h => exact inv_cl i h
  | wt h => exact inv_wt i h
  | pool h => exact inv_pool i h
  | cn h => exact inv_cn i h
  | rq h => exact inv_rq i h
  | ts h => exact inv_ts i h
  | pp h => exact inv_pp i h
  | stop h => exact inv_stop i h

theorem inv_arrive {s s' : St} (i : Inv s) (h : Arrive s s') : Inv s' := by
  obtain ⟨a1, a2, a3, a4, a5, a6, a7, a8, a9, a10, a11, a12, a13, a14, a15, a16⟩ := i
  cases h <;> constructor <;> assumption

theorem inv_command {s s' : St} (i : Inv s) (h : Command s s') : Inv s' := by
  obtain ⟨a1, a2, a3, a4, a5, a6, a7, a8, a9, a10, a11, a12, a13, a14, a15, a16⟩ := i
  cases h with
  | conf k h =>
    constructor <;> first | assumption | skip
    intro h10 x hx
    rcases List.mem_append.1 hx with hx | hx
    · exact a16 h10 x hx
    · rw [List.eq_of_mem_replicate hx]
  | start l h =>
    simp only [h, rank] at *
    have ha : s.cl = .off := a8 (by omega)
    have hq := a12 (by omega)
    rcases l with ⟨l1, l2, l3, l4, l5⟩
    constructor <;> simp [start, rank, ha, a6] <;> cases l1 <;> simp_all [launch, clFlag]
  | record k l h =>
    have hr : rank s.ph = 10 ∨ rank s.ph = 0 := by rcases h with h | h <;> simp [h, rank]
    constructor <;> simp only [record] <;> try assumption
    · cases hc : s.rc <;> simp_all [recIn] <;> cases l <;> simp [launch]
    · omega
  | stop h =>
    simp only [h, rank] at *
    constructor <;> simp_all [stop, rank]

theorem inv_reach {nq : Nat} {s : St} (h : Reach nq s) : Inv s := by
  induction h with
  | init => exact inv_init
  | link _ _ _ st ih => exact inv_link ih st
  | arrive _ _ _ st ih => exact inv_arrive ih st
  | command _ _ _ st ih => exact inv_command ih st

/-! ### Every step of a link being stopped brings the end nearer -/

def cnW : Cn → Nat
  | .off => 0
  | .lost => 0
  | .top => 1
  | .trying => 2
  | .got => 3

def clW : Cl → Nat
  | .off => 0
  | .lost => 0
  | .top => 1
  | .clean _ => 2
  | .wait => 3
  | .check => 4

def clN : Cl → Nat
  | .clean n => n
  | _ => 0

def rqW : Rq → Nat
  | .off => 0
  | .lost => 0
  | .clear => 1
  | .top => 2
  | .round k => 3 + k

def tsW : Ts → Nat
  | .off => 0
  | .lost => 0
  | .top => 1
  | .issue k => 2 + k

def wtW : Wt → Nat
  | .off => 0
  | .loop => 1

def recW : Rec → Nat
  | .off => 0
  | .lost => 0
  | .loop k => 3 * k + 1
  | .inside k => 3 * k + 2
  | .wait k => 3 * k + 3

def ppW : Pp → Nat
  | .off => 0
  | .lost => 0
  | .loop => 1
  | .busy => 2

def ppsW (l : List (Pp × Nat)) : Nat := (l.map fun x => 2 * x.2 + ppW x.1).sum

theorem ppsW_mid (a b : List (Pp × Nat)) (x : Pp × Nat) : ppsW (a ++ x :: b) = ppsW a + ppsW b + (2 * x.2 + ppW x.1) := by
  simp [ppsW]; omega

/-- Lexicographic measure. -/
def meas (s : St) : Nat × Nat × Nat × Nat × Nat × Nat :=
  (4 * s.raw + cnW s.cn, clW s.cl, clN s.cl, s.reqs + rqW s.rq + tsW s.ts,
   6 * s.toPark + 5 * s.waiting + 4 * s.posted + 3 * s.running + s.toPush,
   wtW s.wt + recW s.rc + ppsW s.pps + (10 - rank s.ph))

/-- The order of the measure. -/
def Lt (a b : Nat × Nat × Nat × Nat × Nat × Nat) : Prop :=
  a.1 < b.1 ∨ (a.1 = b.1 ∧ (a.2.1 < b.2.1 ∨ (a.2.1 = b.2.1 ∧ (a.2.2.1 < b.2.2.1 ∨ (a.2.2.1 = b.2.2.1 ∧
    (a.2.2.2.1 < b.2.2.2.1 ∨ (a.2.2.2.1 = b.2.2.2.1 ∧ (a.2.2.2.2.1 < b.2.2.2.2.1 ∨
      (a.2.2.2.2.1 = b.2.2.2.2.1 ∧ a.2.2.2.2.2 < b.2.2.2.2.2)))))))))

theorem lt_wf : WellFounded Lt := by
  have w : WellFounded (fun a b : Nat => a < b) := Nat.lt_wfRel.wf
  let L := Prod.Lex (fun a b : Nat => a < b) (Prod.Lex (fun a b : Nat => a < b) (Prod.Lex (fun a b : Nat => a < b)
    (Prod.Lex (fun a b : Nat => a < b) (Prod.Lex (fun a b : Nat => a < b) (fun a b : Nat => a < b)))))
  have wl : WellFounded L :=
    (Prod.lex ⟨_, w⟩ (Prod.lex ⟨_, w⟩ (Prod.lex ⟨_, w⟩ (Prod.lex ⟨_, w⟩ (Prod.lex ⟨_, w⟩ ⟨_, w⟩))))).wf
  refine Subrelation.wf (r := L) ?_ wl
  rintro ⟨a1, a2, a3, a4, a5, a6⟩ ⟨b1, b2, b3, b4, b5, b6⟩ h
  rcases h with h | ⟨h1, h | ⟨h2, h | ⟨h3, h | ⟨h4, h | ⟨h5, h⟩⟩⟩⟩⟩
  · exact .left _ _ h
  · simp only at h1; subst h1; exact .right _ (.left _ _ h)
  · simp only at h1 h2; subst h1 h2; exact .right _ (.right _ (.left _ _ h))
  · simp only at h1 h2 h3; subst h1 h2 h3; exact .right _ (.right _ (.right _ (.left _ _ h)))
  · simp only at h1 h2 h3 h4; subst h1 h2 h3 h4; exact .right _ (.right _ (.right _ (.right _ (.left _ _ h))))
  · simp only at h1 h2 h3 h4 h5; subst h1 h2 h3 h4 h5
    exact .right _ (.right _ (.right _ (.right _ (.right _ h))))

theorem dec_link {nq : Nat} {s s' : St} (i : Inv s) (hm : s.marker = false) (h : Link nq s s') :
    Lt (meas s') (meas s) := by
  have hh : s.hmarker = false := by rw [i.hmark, hm]
  unfold Lt meas
  cases h with
  | rc h =>
    cases h <;> simp_all [recEnter, recLeave, recW] <;> omega
  | cl h =>
    cases h <;> simp_all [clW, clN] <;> omega
  | wt h =>
    cases h with
    | pass a b c h hm' hn => simp_all
    | last a b h hm' hw hn => simp [pass]; omega
    | finish h hm' hw => simp [h, wtW]
  | pool h =>
    cases h with
    | notYet h hm' => simp_all
    | begin h hp hf => simp [poolBegin]; omega
    | done h => simp [evalDone]; omega
    | push h => simp; omega
    | park h => simp; omega
  | cn h =>
    cases h with
    | round h hm' => simp_all
    | drain h hm' hr => simp [h, cnW]; omega
    | finish h hm' hr => simp [h, cnW]
    | pop h hr => simp [h, cnW]; omega
    | timeout h hr => simp [h, cnW]
    | store full h => simp [h, cnW, stored]
  | rq h =>
    cases h with
    | round h hm' => simp_all
    | stop h hm' => simp [h, rqW]
    | pop k h hr => simp [h, rqW, post]; omega
    | none k h => simp [h, rqW]
    | back h => simp [h, rqW]
    | clear h hr => simp [h, rqW]; omega
    | finish h hr => simp [h, rqW]
  | ts h =>
    cases h with
    | round k h hm' hk => simp_all
    | issue k h => simp [h, tsW, post]
    | back h => simp [h, tsW]
    | finish h hm' => simp [h, tsW]
  | pp h =>
    cases h with
    | take a b q h => simp [h, ppsW_mid, ppW]; omega
    | processed a b q h => simp [h, ppsW_mid, ppW]
    | finish a b h hm' => simp [h, ppsW_mid, ppW]
  | stop h =>
    cases h <;> simp_all [rank]

/-! ### Until the end there is always a step to take -/

theorem cl_progress {nq : Nat} {s : St} (i : Inv s) (hm : s.marker = false) (hl : s.cl ≠ .lost) (hr : recIn s.rc = 0)
    (h : s.cl ≠ .off) : ∃ t, Link nq s t := by
  have hh : s.hmarker = false := by rw [i.hmark, hm]
  cases hc : s.cl with
  | off => exact absurd hc h
  | lost => exact absurd hc hl
  | top => exact ⟨_, .cl _ _ (.finish s hc hh)⟩
  | check => exact ⟨_, .cl _ _ (.skip s hc)⟩
  | wait =>
    by_cases h0 : s.inside = 0
    · exact ⟨_, .cl _ _ (.begin s 0 hc h0)⟩
    · have := i.ins
      exact ⟨_, .pool _ _ (.done s (by omega))⟩
  | clean n =>
    cases n with
    | zero => exact ⟨_, .cl _ _ (.done s hc)⟩
    | succ n => exact ⟨_, .cl _ _ (.pop s n hc)⟩

theorem progress {nq : Nat} {s : St} (i : Inv s) (hs : Stopping s) (hl : NoneLost s) : ∃ t, Link nq s t := by
  obtain ⟨l1, l2, l3, l4, l5, l6⟩ := hl
  have hm : s.marker = false := by
    cases h : s.marker with
    | false => rfl
    | true => exact absurd (i.mark.mp h) hs.2
  have hh : s.hmarker = false := by rw [i.hmark, hm]
  cases hp : s.ph with
  | idle => exact absurd hp hs.1
  | running => exact absurd hp hs.2
  | waitRec =>
    cases hr : s.rc with
    | off => exact ⟨_, .stop _ _ (.recorded s hp hr)⟩
    | lost => exact absurd hr l1
    | loop k =>
      cases k with
      | zero => exact ⟨_, .rc _ _ (.finish s hr)⟩
      | succ k => exact ⟨_, .rc _ _ (.begin s k hr)⟩
    | wait k =>
      cases hf : s.flag with
      | false => exact ⟨_, .rc _ _ (.enter s k hr hf)⟩
      | true =>
        refine cl_progress i hm l2 (by rw [hr]; rfl) ?_
        intro hc
        rw [i.flag, hc] at hf
        simp [clFlag] at hf
    | inside k => exact ⟨_, .rc _ _ (.leave s k hr)⟩
  | waitClean =>
    by_cases hc : s.cl = .off
    · exact ⟨_, .stop _ _ (.cleaned s hp hc)⟩
    · exact cl_progress i hm l2 (by rw [i.rcOff (by simp [hp, rank]) (by simp [hp, rank])]; rfl) hc
  | waitWaiter =>
    cases hw : s.wt with
    | off => exact ⟨_, .stop _ _ (.waited s hp hw)⟩
    | loop =>
      by_cases h0 : s.waiting = 0
      · exact ⟨_, .wt _ _ (.finish s hw hh h0)⟩
      · exact ⟨_, .wt _ _ (.last s 0 s.waiting hw hh (by omega) (by omega))⟩
  | joinPool =>
    have hf : s.flag = false := by rw [i.flag, i.clOff (by simp [hp, rank])]; rfl
    by_cases h1 : s.posted = 0
    · by_cases h2 : s.running = 0
      · by_cases h3 : s.toPush = 0
        · by_cases h4 : s.toPark = 0
          · exact ⟨_, .stop _ _ (.joined s hp h1 h2 h3 h4)⟩
          · exact ⟨_, .pool _ _ (.park s (by omega))⟩
        · exact ⟨_, .pool _ _ (.push s (by omega))⟩
      · exact ⟨_, .pool _ _ (.done s (by omega))⟩
    · exact ⟨_, .pool _ _ (.begin s (by omega) (i.poolOn (by simp [hp, rank])) hf)⟩
  | waitSync =>
    cases ht : s.ts with
    | off => exact ⟨_, .stop _ _ (.synced s hp ht)⟩
    | lost => exact absurd ht l5
    | top => exact ⟨_, .ts _ _ (.finish s ht hm)⟩
    | issue k =>
      cases k with
      | zero => exact ⟨_, .ts _ _ (.back s ht)⟩
      | succ k => exact ⟨_, .ts _ _ (.issue s k ht)⟩
  | waitCons =>
    cases hc : s.cn with
    | off => exact ⟨_, .stop _ _ (.consumed s hp hc)⟩
    | lost => exact absurd hc l3
    | top =>
      by_cases h0 : s.raw = 0
      · exact ⟨_, .cn _ _ (.finish s hc hm h0)⟩
      · exact ⟨_, .cn _ _ (.drain s hc hm (by omega))⟩
    | trying =>
      by_cases h0 : s.raw = 0
      · exact ⟨_, .cn _ _ (.timeout s hc h0)⟩
      · exact ⟨_, .cn _ _ (.pop s hc (by omega))⟩
    | got => exact ⟨_, .cn _ _ (.store s [] hc)⟩
  | waitReq =>
    cases hc : s.rq with
    | off => exact ⟨_, .stop _ _ (.requested s hp hc)⟩
    | lost => exact absurd hc l4
    | top => exact ⟨_, .rq _ _ (.stop s hc hm)⟩
    | round k =>
      cases k with
      | zero => exact ⟨_, .rq _ _ (.back s hc)⟩
      | succ k => exact ⟨_, .rq _ _ (.none s k hc)⟩
    | clear =>
      by_cases h0 : s.reqs = 0
      · exact ⟨_, .rq _ _ (.finish s hc h0)⟩
      · exact ⟨_, .rq _ _ (.clear s hc (by omega))⟩
  | flush => exact ⟨_, .stop _ _ (.flushed s hp)⟩
  | waitPost =>
    by_cases ha : ∀ x ∈ s.pps, x.1 = .off
    · exact ⟨_, .stop _ _ (.returned s hp ha)⟩
    · have : ∃ x ∈ s.pps, x.1 ≠ .off := by
        apply Classical.byContradiction
        intro hn
        exact ha fun x hx => Classical.byContradiction fun h => hn ⟨x, hx, h⟩
      obtain ⟨⟨p, q⟩, hx, hne⟩ := this
      obtain ⟨a, b, hab⟩ := List.append_of_mem hx
      cases p with
      | off => exact absurd rfl hne
      | lost => exact absurd ⟨_, hx, rfl⟩ l6
      | loop =>
        cases q with
        | zero => exact ⟨_, .pp _ _ (.finish s a b hab (i.pmark' hp))⟩
        | succ q => exact ⟨_, .pp _ _ (.take s a b q hab)⟩
      | busy => exact ⟨_, .pp _ _ (.processed s a b q hab)⟩

/-! ### What the link and arrivals do not change -/

theorem link_lost {nq : Nat} {s s' : St} (hl : NoneLost s) (h : Link nq s s') : NoneLost s' := by
  obtain ⟨l1, l2, l3, l4, l5, l6⟩ := hl
  cases h with
  | rc h => cases h <;> simp_all [NoneLost, recEnter, recLeave]
  | cl h => cases h <;> simp_all [NoneLost]
  | wt h => cases h <;> simp_all [NoneLost, pass]
  | pool h => cases h <;> simp_all [NoneLost, poolBegin, evalDone, evalNotYet]
  | cn h =>
    cases h with
    | store full h =>
      refine ⟨l1, l2, by simp [stored], l4, l5, ?_⟩
      rintro ⟨x, hx, e'⟩
      obtain ⟨y, hy, e⟩ := offer_mem hx
      exact l6 ⟨y, hy, e.trans e'⟩
    | _ => simp_all [NoneLost]
  | rq h => cases h <;> simp_all [NoneLost, post]
  | ts h => cases h <;> simp_all [NoneLost, post]
  | pp h =>
    cases h with
    | take a b q h =>
      refine ⟨l1, l2, l3, l4, l5, ?_⟩
      rintro ⟨x, hx, e⟩
      simp only [List.mem_append, List.mem_cons] at hx
      rcases hx with hx | hx | hx
      · exact l6 ⟨x, by simp [h, hx], e⟩
      · rw [hx] at e; simp at e
      · exact l6 ⟨x, by simp [h, hx], e⟩
    | processed a b q h =>
      refine ⟨l1, l2, l3, l4, l5, ?_⟩
      rintro ⟨x, hx, e⟩
      simp only [List.mem_append, List.mem_cons] at hx
      rcases hx with hx | hx | hx
      · exact l6 ⟨x, by simp [h, hx], e⟩
      · rw [hx] at e; simp at e
      · exact l6 ⟨x, by simp [h, hx], e⟩
    | finish a b h hm =>
      refine ⟨l1, l2, l3, l4, l5, ?_⟩
      rintro ⟨x, hx, e⟩
      simp only [List.mem_append, List.mem_cons] at hx
      rcases hx with hx | hx | hx
      · exact l6 ⟨x, by simp [h, hx], e⟩
      · rw [hx] at e; simp at e
      · exact l6 ⟨x, by simp [h, hx], e⟩
  | stop h => cases h <;> simp_all [NoneLost]

theorem arrive_lost {s s' : St} (hl : NoneLost s) (h : Arrive s s') : NoneLost s' := by
  cases h <;> exact hl

theorem link_running {nq : Nat} {s s' : St} (hs : Stopping s) (h : Link nq s s') : s'.ph ≠ .running := by
  obtain ⟨h1, h2⟩ := hs
  cases h with
  | rc h => cases h <;> simpa [recEnter, recLeave] using h2
  | cl h => cases h <;> simpa using h2
  | wt h => cases h <;> simpa [pass] using h2
  | pool h => cases h <;> simpa [poolBegin, evalDone, evalNotYet] using h2
  | cn h => cases h <;> simpa [stored] using h2
  | rq h => cases h <;> simpa [post] using h2
  | ts h => cases h <;> simpa [post] using h2
  | pp h => cases h <;> simpa using h2
  | stop h => cases h <;> simp

theorem arrive_ph {s s' : St} (h : Arrive s s') : s'.ph = s.ph := by
  cases h <;> rfl

/-! ### C98 -/

/-- C98. From any reachable state in which the stop command is under way and no worker thread has missed its launch:
in every execution in which payloads and requests stop arriving at some time, whatever the interleaving of the threads
and whatever was in the queues, the buffer, the waiting list and the pool, the stop command returns. Partial: false if
arrivals go on (`C98_arrivals_counterexample`) or a worker missed its launch (`C98_lost_counterexample`). -/
theorem C98_stop_returns_partial {nq : Nat} (e : Nat → St) (h0 : Reach nq (e 0)) (hs : Stopping (e 0))
    (hl : NoneLost (e 0)) (he : ∀ i, (e i).ph ≠ .idle → Next nq (e i) (e (i + 1)))
    (k : Nat) (hk : ∀ i, k ≤ i → ¬ Arrive (e i) (e (i + 1))) : ∃ i, (e i).ph = .idle := by
  apply Classical.byContradiction
  intro hn
  have hni : ∀ i, (e i).ph ≠ .idle := fun i hi => hn ⟨i, hi⟩
  have all : ∀ i, Inv (e i) ∧ Stopping (e i) ∧ NoneLost (e i) := by
    intro i
    induction i with
    | zero => exact ⟨inv_reach h0, hs, hl⟩
    | succ i ih =>
      obtain ⟨i1, i2, i3⟩ := ih
      rcases he i (hni i) with h | h | ⟨h, h'⟩
      · exact ⟨inv_link i1 h, ⟨hni _, link_running i2 h⟩, link_lost i3 h⟩
      · exact ⟨inv_arrive i1 h, ⟨hni _, by rw [arrive_ph h]; exact i2.2⟩, arrive_lost i3 h⟩
      · rw [h]; exact ⟨i1, i2, i3⟩
  have dec : ∀ i, k ≤ i → Lt (meas (e (i + 1))) (meas (e i)) := by
    intro i hi
    obtain ⟨i1, i2, i3⟩ := all i
    have hm : (e i).marker = false := by
      cases h : (e i).marker with
      | false => rfl
      | true => exact absurd (i1.mark.mp h) i2.2
    rcases he i (hni i) with h | h | ⟨h, h'⟩
    · exact dec_link i1 hm h
    · exact absurd h (hk i hi)
    · obtain ⟨t, ht⟩ := progress (nq := nq) i1 i2 i3
      exact absurd ht (h' t)
  have none : ∀ m, ∀ i, k ≤ i → meas (e i) = m → False := by
    intro m
    induction m using lt_wf.induction with
    | _ m ih =>
      intro i hi hm
      exact ih _ (hm ▸ dec i hi) (i + 1) (by omega) rfl
  exact none _ k (Nat.le_refl _) rfl

/-- C98. Before it returns there is always something that can run: nothing of the link waits for ever. -/
theorem C98_progress {nq : Nat} {s : St} (h : Reach nq s) (hs : Stopping s) (hl : NoneLost s) : ∃ t, Link nq s t :=
  progress (inv_reach h) hs hl

/-- C98. When it has returned, no thread of the link is at work and no request is being handled (a recording started
afterwards excepted). -/
theorem C98_returned {nq : Nat} {s : St} (h : Reach nq s) (hs : s.ph = .idle) : AllOff s := by
  have i := inv_reach h
  have r : rank s.ph = 10 := by rw [hs]; rfl
  have q := i.quiet (by omega)
  exact ⟨i.clOff (by omega), i.wtOff (by omega), i.cnOff (by omega), i.rqOff (by omega), i.tsOff (by omega),
    i.ppOff (by omega), q.1, q.2.1, q.2.2⟩

/-! ### False without the two conditions -/

/-- A thread that missed its launch, with the position the stop command cannot pass. -/
def Stuck (s : St) : Prop :=
  (s.rc = .lost ∧ rank s.ph ≤ 1) ∨ (s.cl = .lost ∧ rank s.ph ≤ 2) ∨ (s.ts = .lost ∧ rank s.ph ≤ 5) ∨
  (s.cn = .lost ∧ rank s.ph ≤ 6) ∨ (s.rq = .lost ∧ rank s.ph ≤ 7) ∨ (PpsLost s.pps ∧ rank s.ph ≤ 9)

theorem pps_lost {s s' : St} (h : PpStep s s') (hl : PpsLost s.pps) : PpsLost s'.pps := by
  obtain ⟨x, hx, e⟩ := hl
  cases h with
  | take a b q h =>
    rw [h] at hx
    simp only [List.mem_append, List.mem_cons] at hx
    rcases hx with hx | hx | hx
    · exact ⟨x, by simp [hx], e⟩
    · rw [hx] at e; simp at e
    · exact ⟨x, by simp [hx], e⟩
  | processed a b q h =>
    rw [h] at hx
    simp only [List.mem_append, List.mem_cons] at hx
    rcases hx with hx | hx | hx
    · exact ⟨x, by simp [hx], e⟩
    · rw [hx] at e; simp at e
    · exact ⟨x, by simp [hx], e⟩
  | finish a b h hm =>
    rw [h] at hx
    simp only [List.mem_append, List.mem_cons] at hx
    rcases hx with hx | hx | hx
    · exact ⟨x, by simp [hx], e⟩
    · rw [hx] at e; simp at e
    · exact ⟨x, by simp [hx], e⟩

theorem stuck_link {nq : Nat} {s s' : St} (h : Stuck s) (st : Link nq s s') : Stuck s' := by
  cases st with
  | rc h' => cases h' <;> simp_all [Stuck, recEnter, recLeave]
  | cl h' => cases h' <;> simp_all [Stuck]
  | wt h' => cases h' <;> simp_all [Stuck, pass]
  | pool h' => cases h' <;> simp_all [Stuck, poolBegin, evalDone, evalNotYet]
  | cn h' =>
    cases h' with
    | store full h' =>
      rcases h with h | h | h | h | h | ⟨⟨y, hy, e⟩, h⟩
      · exact .inl h
      · exact .inr (.inl h)
      · exact .inr (.inr (.inl h))
      · rw [h'] at h; simp at h
      · exact .inr (.inr (.inr (.inr (.inl h))))
      · obtain ⟨x, hx, e'⟩ := mem_offer (fs := full) hy
        exact .inr (.inr (.inr (.inr (.inr ⟨⟨x, hx, e'.trans e⟩, h⟩))))
    | _ => simp_all [Stuck]
  | rq h' => cases h' <;> simp_all [Stuck, post]
  | ts h' => cases h' <;> simp_all [Stuck, post]
  | pp h' =>
    have hk := pps_lost h'
    rcases h with h | h | h | h | h | ⟨hp, h⟩
    · left; cases h' <;> exact h
    · right; left; cases h' <;> exact h
    · right; right; left; cases h' <;> exact h
    · right; right; right; left; cases h' <;> exact h
    · right; right; right; right; left; cases h' <;> exact h
    · right; right; right; right; right; exact ⟨hk hp, by cases h' <;> exact h⟩
  | stop h' =>
    cases h' with
    | returned h1 ht =>
      rcases h with h | h | h | h | h | ⟨⟨x, hx, e⟩, h⟩
      all_goals first | (simp [h1, rank] at h; done) | skip
      rw [ht x hx] at e; simp at e
    | _ => simp_all [Stuck, rank]

/-- C98 is false if a worker missed its launch: whichever it was, the stop command never returns. -/
theorem C98_lost_never {nq : Nat} {s : St} (h : Reach nq s) (hs : Stopping s) (hl : ¬ NoneLost s) {t : St}
    (ht : Later nq s t) : t.ph ≠ .idle := by
  have i := inv_reach h
  have h0 : Stuck s := by
    have hp : rank s.ph ≤ 9 := by
      cases hp : s.ph <;> simp_all [rank, Stopping]
    have n : s.rc = .lost ∨ s.cl = .lost ∨ s.cn = .lost ∨ s.rq = .lost ∨ s.ts = .lost ∨ PpsLost s.pps := by
      apply Classical.byContradiction
      intro hn
      simp only [not_or] at hn
      obtain ⟨n1, n2, n3, n4, n5, n6⟩ := hn
      exact hl ⟨n1, n2, n3, n4, n5, n6⟩
    rcases n with n | n | n | n | n | n
    · refine .inl ⟨n, ?_⟩
      have := i.rcOff
      rw [n] at this
      by_cases hr : 2 ≤ rank s.ph
      · exact absurd (this hr hp) (by simp)
      · omega
    · refine .inr (.inl ⟨n, ?_⟩)
      have := i.clOff
      rw [n] at this
      by_cases hr : 3 ≤ rank s.ph
      · exact absurd (this hr) (by simp)
      · omega
    · refine .inr (.inr (.inr (.inl ⟨n, ?_⟩)))
      have := i.cnOff
      rw [n] at this
      by_cases hr : 7 ≤ rank s.ph
      · exact absurd (this hr) (by simp)
      · omega
    · refine .inr (.inr (.inr (.inr (.inl ⟨n, ?_⟩))))
      have := i.rqOff
      rw [n] at this
      by_cases hr : 8 ≤ rank s.ph
      · exact absurd (this hr) (by simp)
      · omega
    · refine .inr (.inr (.inl ⟨n, ?_⟩))
      have := i.tsOff
      rw [n] at this
      by_cases hr : 6 ≤ rank s.ph
      · exact absurd (this hr) (by simp)
      · omega
    · exact .inr (.inr (.inr (.inr (.inr ⟨n, hp⟩))))
  have h1 : Stuck t := by
    induction ht with
    | refl => exact h0
    | link _ _ _ st ih => exact stuck_link (ih) st
    | arrive _ _ _ st ih =>
      have := ih
      cases st <;> exact this
  intro hp
  simp [Stuck, hp, rank] at h1

/-- Everything is launched. -/
def good : Launches := ⟨.runs, .runs, .runs, .runs, [.runs, .runs]⟩

/-- C98 is false: the consumer misses its launch (C44) and stop never returns, whatever happens. -/
theorem C98_lost_counterexample : ∃ s, Reach 1 s ∧ Stopping s ∧ ∀ t, Later 1 s t → t.ph ≠ .idle := by
  have h : Reach 1 (stop (start St.init ⟨.runs, .lost, .runs, .runs, []⟩)) :=
    .command _ _ (.command _ _ .init (.start _ _ rfl)) (.stop _ rfl)
  have hs : Stopping (stop (start St.init ⟨.runs, .lost, .runs, .runs, []⟩)) := ⟨by decide, by decide⟩
  exact ⟨_, h, hs, fun t ht => C98_lost_never h hs (by simp [NoneLost, stop, start, St.init, launch]) ht⟩

/-- The stop command waits for the consumer, one payload is left. -/
def draining : St :=
  ⟨.waitCons, false, false, true, .off, .off, .off, .top, .top, .off, [(.loop, 0), (.loop, 0)], 1, 0, false, 0, false, 0, 0, 0, 0, 0⟩

theorem draining_reach : Reach 1 draining := by
  have hc : Reach 1 _ := .command _ _ .init (.conf _ 2 rfl)
  have h0 : Reach 1 _ := .command _ _ (.command _ _ hc (.start _ good rfl)) (.stop _ rfl)
  have h1 : Reach 1 _ := .link _ _ h0 (.stop _ _ (.recorded _ rfl rfl))
  have h2 : Reach 1 _ := .link _ _ h1 (.cl _ _ (.finish _ rfl rfl))
  have h3 : Reach 1 _ := .link _ _ h2 (.stop _ _ (.cleaned _ rfl rfl))
  have h4 : Reach 1 _ := .link _ _ h3 (.wt _ _ (.finish _ rfl rfl rfl))
  have h5 : Reach 1 _ := .link _ _ h4 (.stop _ _ (.waited _ rfl rfl))
  have h6 : Reach 1 _ := .link _ _ h5 (.stop _ _ (.joined _ rfl rfl rfl rfl rfl))
  have h7 : Reach 1 _ := .link _ _ h6 (.ts _ _ (.finish _ rfl rfl))
  have h8 : Reach 1 _ := .link _ _ h7 (.stop _ _ (.synced _ rfl rfl))
  exact .arrive _ _ h8 (.payload _)

/-- Three states over and over. -/
def cycle3 (a b c : St) (i : Nat) : St := if i % 3 = 0 then a else if i % 3 = 1 then b else c

theorem cycle3_next {nq : Nat} {a b c : St} (h1 : Next nq a b) (h2 : Next nq b c) (h3 : Next nq c a) (i : Nat) :
    Next nq (cycle3 a b c i) (cycle3 a b c (i + 1)) := by
  unfold cycle3
  have : i % 3 = 0 ∨ i % 3 = 1 ∨ i % 3 = 2 := by omega
  rcases this with h | h | h
  · have e : (i + 1) % 3 = 1 := by omega
    simp only [h, e]; exact h1
  · have e : (i + 1) % 3 = 2 := by omega
    simp only [h, e]; exact h2
  · have e : (i + 1) % 3 = 0 := by omega
    simp only [h, e]; exact h3

/-- C98 is false: a payload arrives while each payload is stored, every thread was launched, no thread is held up, and
stop never returns. -/
theorem C98_arrivals_counterexample : ∃ e : Nat → St, Reach 1 (e 0) ∧ Stopping (e 0) ∧ NoneLost (e 0) ∧
    (∀ i, Next 1 (e i) (e (i + 1))) ∧ (∀ i, Link 1 (e (3 * i)) (e (3 * i + 1))) ∧ ∀ i, (e i).ph ≠ .idle := by
  have s1 : Link 1 draining { draining with cn := .got, raw := 0 } :=
    .cn _ _ (.drain draining rfl rfl (by decide))
  have s2 : Arrive { draining with cn := .got, raw := 0 } { draining with cn := .got, raw := 1 } := .payload _
  have s3 : Link 1 { draining with cn := .got, raw := 1 } draining := .cn _ _ (.store _ [true, true] rfl)
  refine ⟨cycle3 draining { draining with cn := .got, raw := 0 } { draining with cn := .got, raw := 1 },
    draining_reach, ⟨by decide, by decide⟩, by simp [NoneLost, cycle3, draining, PpsLost],
    cycle3_next (.inl s1) (.inr (.inl s2)) (.inl s3), fun i => ?_, fun i => ?_⟩
  · have e1 : 3 * i % 3 = 0 := by omega
    have e2 : (3 * i + 1) % 3 = 1 := by omega
    simp only [cycle3, e1, e2]
    exact s1
  · unfold cycle3
    split
    · decide
    · split <;> decide

/-- The stop command waits for the requester, which removes the requests left over. -/
def clearing : St :=
  ⟨.waitReq, false, false, true, .off, .off, .off, .off, .clear, .off, [(.loop, 1), (.loop, 0)], 0, 0, false, 0, false, 0, 0, 0, 0, 0⟩

theorem clearing_reach : Reach 1 clearing := by
  have h0 : Reach 1 _ := .link _ _ draining_reach (.cn _ _ (.drain _ rfl rfl (by decide)))
  have h1 : Reach 1 _ := .link _ _ h0 (.cn _ _ (.store _ [false, true] rfl))
  have h2 : Reach 1 _ := .link _ _ h1 (.cn _ _ (.finish _ rfl rfl rfl))
  have h3 : Reach 1 _ := .link _ _ h2 (.stop _ _ (.consumed _ rfl rfl))
  exact .link _ _ h3 (.rq _ _ (.stop _ rfl rfl))

/-- C98 is false: requests that keep arriving keep the clearing of the request queues going. -/
theorem C98_requests_counterexample : ∃ e : Nat → St, Reach 1 (e 0) ∧ Stopping (e 0) ∧ NoneLost (e 0) ∧
    (∀ i, Next 1 (e i) (e (i + 1))) ∧ (∀ i, Link 1 (e (2 * i + 1)) (e (2 * i + 2))) ∧ ∀ i, (e i).ph ≠ .idle := by
  have s1 : Arrive clearing { clearing with reqs := 1 } := .request _
  have s2 : Link 1 { clearing with reqs := 1 } clearing := .rq _ _ (.clear _ rfl (by decide))
  refine ⟨fun i => if i % 2 = 0 then clearing else { clearing with reqs := 1 }, clearing_reach,
    ⟨by decide, by decide⟩, by simp [NoneLost, clearing, PpsLost], fun i => ?_, fun i => ?_, fun i => ?_⟩
  · dsimp only
    by_cases h : i % 2 = 0
    · have e : ¬ (i + 1) % 2 = 0 := by omega
      rw [if_pos h, if_neg e]; exact .inr (.inl s1)
    · have e : (i + 1) % 2 = 0 := by omega
      rw [if_neg h, if_pos e]; exact .inl s2
  · dsimp only
    have e1 : ¬ (2 * i + 1) % 2 = 0 := by omega
    have e2 : (2 * i + 2) % 2 = 0 := by omega
    rw [if_neg e1, if_pos e2]
    exact s2
  · dsimp only
    split <;> decide

/-! ### The hypotheses of `C98_stop_returns_partial` can be met -/

theorem lt_irrefl_arrive {s s' : St} (h : Arrive s s') (hl : Lt (meas s') (meas s)) : False := by
  unfold Lt meas at hl
  cases h
  · simp at hl; omega
  · simp at hl; omega

theorem arrive_ne {s s' : St} (h : Arrive s s') : s' ≠ s := by
  cases h
  · intro e; have := congrArg St.raw e; simp at this
  · intro e; have := congrArg St.reqs e; simp at this

open Classical in
/-- Some step of the link if there is one. -/
noncomputable def pick (nq : Nat) (s : St) : St :=
  if h : s.ph ≠ .idle ∧ ∃ t, Link nq s t then Classical.choose h.2 else s

/-- From every such state there is an execution as in `C98_stop_returns_partial`: the link takes steps and nothing
arrives. Hence stop can return. -/
theorem executions_exist {nq : Nat} {s : St} (h : Reach nq s) (hs : Stopping s) (hl : NoneLost s) :
    ∃ e : Nat → St, e 0 = s ∧ (∀ i, (e i).ph ≠ .idle → Next nq (e i) (e (i + 1))) ∧
      ∀ i, ¬ Arrive (e i) (e (i + 1)) := by
  let e : Nat → St := fun i => Nat.rec s (fun _ t => pick nq t) i
  have es : ∀ i, e (i + 1) = pick nq (e i) := fun i => rfl
  have all : ∀ i, Inv (e i) ∧ (e i).ph ≠ .running ∧ NoneLost (e i) := by
    intro i
    induction i with
    | zero => exact ⟨inv_reach h, hs.2, hl⟩
    | succ i ih =>
      rw [es]
      unfold pick
      split
      · rename_i hc
        have st := Classical.choose_spec hc.2
        exact ⟨inv_link ih.1 st, link_running ⟨hc.1, ih.2.1⟩ st, link_lost ih.2.2 st⟩
      · exact ih
  refine ⟨e, rfl, fun i hi => ?_, fun i ha => ?_⟩
  · obtain ⟨i1, i2, i3⟩ := all i
    have p := progress (nq := nq) i1 ⟨hi, i2⟩ i3
    left
    rw [es]
    unfold pick
    rw [dif_pos ⟨hi, p⟩]
    exact Classical.choose_spec p
  · obtain ⟨i1, i2, i3⟩ := all i
    rw [es] at ha
    unfold pick at ha
    split at ha
    · rename_i hc
      have st := Classical.choose_spec hc.2
      have hm : (e i).marker = false := by
        cases h : (e i).marker with
        | false => rfl
        | true => exact absurd (i1.mark.mp h) i2
      exact lt_irrefl_arrive ha (dec_link i1 hm st)
    · exact arrive_ne ha rfl

/-- A link stopped in the middle of everything: a recording about to enter, a cleanup waiting for a running request, a
second request posted, a payload taken from the input queue, one payload and one request left there. -/
example : ∃ s, Reach 2 s ∧ Stopping s ∧ NoneLost s ∧ s.rc = .wait 4 ∧ s.cl = .wait ∧ s.flag = true ∧
    s.inside = 1 ∧ s.running = 1 ∧ s.posted = 1 ∧ s.cn = .got ∧ s.raw = 1 ∧ s.reqs = 1 ∧ s.rq = .round 0 := by
  have hc : Reach 2 _ := .command _ _ .init (.conf _ 2 rfl)
  have h0 : Reach 2 _ := .command _ _ hc (.start _ good rfl)
  have h1 : Reach 2 _ := .command _ _ h0 (.record _ 5 .runs (.inr rfl))
  have h2 : Reach 2 _ := .arrive _ _ (.arrive _ _ h1 (.payload _)) (.payload _)
  have h3 : Reach 2 _ := .arrive _ _ (.arrive _ _ (.arrive _ _ h2 (.request _)) (.request _)) (.request _)
  have h4 : Reach 2 _ := .link _ _ h3 (.rq _ _ (.round _ rfl rfl))
  have h5 : Reach 2 _ := .link _ _ h4 (.rq _ _ (.pop _ 1 rfl (by decide)))
  have h6 : Reach 2 _ := .link _ _ h5 (.rq _ _ (.pop _ 0 rfl (by decide)))
  have h7 : Reach 2 _ := .link _ _ h6 (.pool _ _ (.begin _ (by decide) rfl rfl))
  have h8 : Reach 2 _ := .link _ _ h7 (.cl _ _ (.round _ rfl rfl))
  have h9 : Reach 2 _ := .link _ _ h8 (.cl _ _ (.request _ rfl))
  have h10 : Reach 2 _ := .link _ _ h9 (.rc _ _ (.begin _ 4 rfl))
  have h11 : Reach 2 _ := .link _ _ h10 (.cn _ _ (.round _ rfl rfl))
  have h12 : Reach 2 _ := .link _ _ h11 (.cn _ _ (.pop _ rfl (by decide)))
  have h13 : Reach 2 _ := .command _ _ h12 (.stop _ rfl)
  refine ⟨_, h13, ⟨by decide, by decide⟩, ?_, rfl, rfl, rfl, rfl, rfl, rfl, rfl, rfl, rfl, rfl⟩
  refine ⟨by decide, by decide, by decide, by decide, by decide, ?_⟩
  rintro ⟨x, hx, e⟩
  simp [stop, poolBegin, post, record, start, conf, relaunch, good, launch, St.init, List.replicate] at hx
  rcases hx with rfl | rfl <;> simp at e

/-! ### No request is lost inside the link -/

/-- Requests the link has taken and not yet answered. -/
def held (s : St) : Nat := s.posted + s.running + s.toPush + s.toPark + s.waiting

/-- C98. Every step of the link, in any state, leaves the number of requests taken and not answered alone, except: one is
taken from a queue or made up by the link, one whose evaluation is finished is pushed, or the thread of the waiting list
answers some of those on the list. A request evaluated as not yet is parked, a parked one stays or is evaluated again. -/
theorem C98_requests_kept {nq : Nat} {s t : St} (h : Link nq s t) :
    held t = held s ∨ held t = held s + 1 ∧ (s.reqs = t.reqs + 1 ∨ ∃ k, s.ts = .issue (k + 1)) ∨
      held s = held t + 1 ∧ s.toPush = t.toPush + 1 ∨
      s.wt = .loop ∧ held s - held t ≤ s.waiting ∧ held t ≤ held s ∧ t.running = s.running ∧ t.toPush = s.toPush ∧
        t.toPark = s.toPark := by
  cases h with
  | rc h => cases h <;> exact .inl rfl
  | cl h => cases h <;> exact .inl rfl
  | wt h =>
    cases h with
    | pass a b c h hm hn => refine .inr (.inr (.inr ⟨h, ?_, ?_, rfl, rfl, rfl⟩)) <;> simp only [held, pass] <;> omega
    | last a b h hm hw hn => refine .inr (.inr (.inr ⟨h, ?_, ?_, rfl, rfl, rfl⟩)) <;> simp only [held, pass] <;> omega
    | finish h hm hw => exact .inl rfl
  | pool h =>
    cases h with
    | begin h hp hf => left; simp only [held, poolBegin]; omega
    | done h => left; simp only [held, evalDone]; omega
    | notYet h hm => left; simp only [held, evalNotYet]; omega
    | push h => right; right; left; simp only [held]; omega
    | park h => left; simp only [held]; omega
  | cn h => cases h <;> exact .inl rfl
  | rq h =>
    cases h with
    | pop k h hr => right; left; simp only [held, post]; omega
    | _ => exact .inl rfl
  | ts h =>
    cases h with
    | issue k h => right; left; refine ⟨?_, .inr ⟨k, h⟩⟩; simp only [held, post]; omega
    | _ => exact .inl rfl
  | pp h => cases h <;> exact .inl rfl
  | stop h => cases h <;> exact .inl rfl

/-- Three requests held: one posted, one being evaluated, one on the list. -/
example : held { draining with ph := .running, posted := 1, running := 1, waiting := 1 } = 3 := rfl

end Verif.StopLink
