import Verif.ListLifeModel
import Verif.ListLinkProps
import Verif.SessionProps
import Verif.RetryProps
/- Property C111: photon-detector links with the sorted buffer over all their runs. -/
namespace Verif.ListLife
open Verif.DataReq Verif.Session Verif.SkipList

/-! ### Specification -/

/-- The frames (payload, index) that lie in the window `[b, e)` and belong to a payload that begins inside it. -/
def Begun (tick nf : Nat) (ts : List Nat) (b e : Nat) (f : Nat × Nat) : Prop :=
  f.1 ∈ ts ∧ f.2 < nf ∧ b ≤ f.1 ∧ f.1 + f.2 * tick < e

/-- No payload comes `m` ticks or more behind one that came before it. -/
def Near (m : Nat) (ts : List Nat) : Prop := ts.Pairwise (fun u t => u < t + m)

/-- Payloads come in order of time. -/
def InOrder (ts : List Nat) : Prop := ts.Pairwise (· < ·)

theorem InOrder.near {m : Nat} {ts : List Nat} (h : InOrder ts) : Near m ts := h.imp (fun h => by omega)

/-! ### One evaluation -/

theorem le_last {l : List Nat} (hs : StrictSorted id l) {z : Nat} (hz : l.getLast? = some z) {x : Nat} (hx : x ∈ l) :
    x ≤ z := by
  obtain ⟨ys, rfl⟩ := List.getLast?_eq_some_iff.1 hz
  rcases List.mem_append.1 hx with hx | hx
  · exact Nat.le_of_lt ((List.pairwise_append.1 hs).2.2 x hx z (by simp))
  · simp at hx; omega

theorem head_le {l : List Nat} (hs : StrictSorted id l) {a : Nat} (ha : l.head? = some a) {x : Nat} (hx : x ∈ l) :
    a ≤ x := by
  cases l with
  | nil => simp at hx
  | cons b l =>
    simp at ha; subst ha
    rcases List.mem_cons.1 hx with rfl | hx
    · exact Nat.le_refl _
    · exact Nat.le_of_lt ((List.pairwise_cons.1 hs).1 x hx)

theorem mem_frames {c : Cfg} (l : List Nat) (b e : Nat) (f : Nat × Nat) :
    f ∈ wanted c.T (l.filter (fun p => decide (b ≤ c.T.ts p))) b e ↔ Begun c.tick c.nf l b e f := by
  simp only [wanted, List.mem_filter, mem_allFrames, Bool.and_eq_true, decide_eq_true_eq]
  constructor
  · rintro ⟨⟨⟨h1, h2⟩, h3⟩, h4, h5⟩; exact ⟨h1, h3, h2, h5⟩
  · rintro ⟨h1, h2, h3, h4⟩
    refine ⟨⟨⟨h1, h3⟩, h2⟩, ?_, h4⟩
    show b ≤ f.1 + f.2 * c.tick
    omega

/-- What an evaluation on a sorted buffer gives. -/
structure Evaluated (c : Cfg) (l : List Nat) (running : Bool) (dr : Request) (r : Result Nat) : Prop where
  waits : r.fragment = none → running = true ∧ ∃ z ∈ l, (∀ x ∈ l, x ≤ z) ∧ (z < dr.wEnd ∨ z < dr.wBegin)
  echo : ∀ fr, r.fragment = some fr → Echoes fr.header c.geo c.ft dr
  err : ∀ fr, r.fragment = some fr → fr.header.dataNotFound = true → fr.frames = []
  good : ∀ fr, r.fragment = some fr → fr.header.dataNotFound = false →
    (∃ a ∈ l, a ≤ dr.wBegin) ∧ (∃ z ∈ l, dr.wEnd ≤ z) ∧ fr.frames.Nodup ∧
    ∀ f, f ∈ fr.frames ↔ Begun c.tick c.nf l dr.wBegin dr.wEnd f
  covered : ∀ a ∈ l, a ≤ dr.wBegin → ∀ z ∈ l, dr.wEnd ≤ z → ∀ y ∈ l, dr.wBegin ≤ y →
    ∃ fr, r.fragment = some fr ∧ fr.header.dataNotFound = false

theorem evaluated (c : Cfg) (hc : 0 < c.nf) (l : List Nat) (hs : StrictSorted id l) (running : Bool) (k : Counters)
    (dr : Request) : ∃ r, ListLink.request c.T c.geo c.ft l dr.wBegin running k dr = .ok r ∧
      Evaluated c l running dr r := by
  by_cases hl : l = []
  · subst hl
    refine ⟨_, rfl, ?_⟩
    constructor
    · intro h; simp at h
    · intro fr h; cases h; exact ⟨rfl, rfl, rfl, rfl, rfl, rfl, rfl, rfl, rfl, rfl⟩
    · intro fr h; cases h; intro; rfl
    · intro fr h; cases h; intro h; simp at h
    · intro a ha; simp at ha
  · obtain ⟨a, z, ha, hz⟩ := ListLink.ends hl
    have hocc : SkipList.occupancy l ≠ 0 := by simpa [SkipList.occupancy] using hl
    have hzm := List.mem_of_getLast? hz
    have ham := List.mem_of_mem_head? ha
    simp only [ListLink.request, if_pos hocc, SkipList.front, SkipList.back, ha, hz]
    by_cases h1 : a ≤ dr.wBegin ∧ dr.wEnd ≤ z
    · have h1' : c.T.ts a ≤ dr.wBegin ∧ dr.wEnd ≤ c.T.ts z := h1
      simp only [if_pos h1']
      by_cases hk : dr.wBegin ≤ z
      · have hdw := ListLink.dropWhile_eq_filter c.T.ts dr.wBegin l hs
        have hne : (fromLowerBound c.T.ts l dr.wBegin).isEmpty = false := by
          rw [hdw]
          have : z ∈ l.filter (fun a => decide (dr.wBegin ≤ c.T.ts a)) :=
            List.mem_filter.2 ⟨hzm, decide_eq_true hk⟩
          cases hf : l.filter (fun a => decide (dr.wBegin ≤ c.T.ts a)) with
          | nil => rw [hf] at this; simp at this
          | cons x xs => rfl
        have hwf : WellFormed c.T (l.filter (fun p => decide (dr.wBegin ≤ c.T.ts p))) :=
          fun p _ => ⟨hc, fun i _ => rfl⟩
        have hfr : extractSkip c.T dr.wBegin dr.wEnd (fromLowerBound c.T.ts l dr.wBegin) =
            wanted c.T (l.filter (fun p => decide (dr.wBegin ≤ c.T.ts p))) dr.wBegin dr.wEnd := by
          rw [hdw]
          exact ListLink.extract_eq_wanted c.T _ _ _ (List.Pairwise.sublist List.filter_sublist hs) hwf
        simp only [hne, Bool.false_eq_true, if_false]
        refine ⟨_, rfl, ?_⟩
        constructor
        · intro h; simp at h
        · intro fr h; cases h; exact ⟨rfl, rfl, rfl, rfl, rfl, rfl, rfl, rfl, rfl, rfl⟩
        · intro fr h; cases h; intro h; simp [createHeader] at h
        · intro fr h; cases h
          intro _
          refine ⟨⟨a, ham, h1.1⟩, ⟨z, hzm, h1.2⟩, ?_, ?_⟩
          · show (extractSkip _ _ _ _).Nodup
            rw [hfr]
            refine List.Nodup.sublist List.filter_sublist (ListLink.allFrames_nodup _ _ ?_)
            refine List.Nodup.sublist List.filter_sublist ?_
            exact List.Pairwise.imp (fun {x y} (h : id x < id y) => Nat.ne_of_lt h) hs
          · intro f
            show f ∈ extractSkip _ _ _ _ ↔ _
            rw [hfr]; exact mem_frames l _ _ f
        · intro a' _ _ z' _ _ y _ _
          exact ⟨_, rfl, rfl⟩
      · have hke : (fromLowerBound c.T.ts l dr.wBegin).isEmpty = true := by
          rw [ListLink.dropWhile_eq_filter c.T.ts dr.wBegin l hs, List.isEmpty_iff, List.filter_eq_nil_iff]
          intro x hx
          have := le_last hs hz hx
          simp only [decide_eq_true_eq, Nat.not_le]
          show x < dr.wBegin
          omega
        simp only [hke, if_true]
        cases running
        · refine ⟨_, rfl, ?_⟩
          constructor
          · intro h; simp at h
          · intro fr h; cases h; exact ⟨rfl, rfl, rfl, rfl, rfl, rfl, rfl, rfl, rfl, rfl⟩
          · intro fr h; cases h; intro; rfl
          · intro fr h; cases h; intro h; simp at h
          · intro a' _ _ z' _ _ y hy hyb
            have := le_last hs hz hy; omega
        · refine ⟨_, rfl, ?_⟩
          constructor
          · intro _; exact ⟨rfl, z, hzm, fun x hx => le_last hs hz hx, Or.inr (by omega)⟩
          · intro fr h; cases h
          · intro fr h; cases h
          · intro fr h; cases h
          · intro a' _ _ z' _ _ y hy hyb
            have := le_last hs hz hy; omega
    · have h1' : ¬ (c.T.ts a ≤ dr.wBegin ∧ dr.wEnd ≤ c.T.ts z) := h1
      simp only [if_neg h1']
      have hcov : ∀ a' ∈ l, a' ≤ dr.wBegin → ∀ z' ∈ l, dr.wEnd ≤ z' → False := by
        intro a' ha' hb z' hz' he
        have := head_le hs ha ha'
        have := le_last hs hz hz'
        omega
      by_cases h2 : a > dr.wBegin
      · have h2' : c.T.ts a > dr.wBegin := h2
        simp only [if_pos h2']
        refine ⟨_, rfl, ?_⟩
        constructor
        · intro h; simp at h
        · intro fr h; cases h; exact ⟨rfl, rfl, rfl, rfl, rfl, rfl, rfl, rfl, rfl, rfl⟩
        · intro fr h; cases h; intro; rfl
        · intro fr h; cases h; intro h; simp at h
        · intro a' ha' hb z' hz' he; exact (hcov a' ha' hb z' hz' he).elim
      · have h2' : ¬ c.T.ts a > dr.wBegin := h2
        have h3 : c.T.ts z < dr.wEnd := by show z < _; omega
        simp only [if_neg h2', if_pos h3]
        cases running
        · refine ⟨_, rfl, ?_⟩
          constructor
          · intro h; simp at h
          · intro fr h; cases h; exact ⟨rfl, rfl, rfl, rfl, rfl, rfl, rfl, rfl, rfl, rfl⟩
          · intro fr h; cases h; intro; rfl
          · intro fr h; cases h; intro h; simp at h
          · intro a' ha' hb z' hz' he; exact (hcov a' ha' hb z' hz' he).elim
        · refine ⟨_, rfl, ?_⟩
          constructor
          · intro _; exact ⟨rfl, z, hzm, fun x hx => le_last hs hz hx, Or.inl h3⟩
          · intro fr h; cases h
          · intro fr h; cases h
          · intro fr h; cases h
          · intro a' ha' hb z' hz' he; exact (hcov a' ha' hb z' hz' he).elim

/-! ### Invariant of the link -/

/-- What every fragment sent satisfies, given all arrivals. -/
structure SentOk (c : Cfg) (log : List Arrival) (e : Sent) : Prop where
  own : ∀ f ∈ e.frag.frames, Begun c.tick c.nf (runLog log e.run) e.req.dr.wBegin e.req.dr.wEnd f
  nodup : e.frag.frames.Nodup
  echo : Echoes e.frag.header c.geo c.ft e.req.dr
  err : e.frag.header.dataNotFound = true → e.frag.frames = []
  ends : e.frag.header.dataNotFound = false →
    (∃ a ∈ runLog log e.run, a ≤ e.req.dr.wBegin) ∧ (∃ z ∈ runLog log e.run, e.req.dr.wEnd ≤ z)
  exact : InOrder (runLog log e.run) → e.frag.header.dataNotFound = false →
    ∀ f, Begun c.tick c.nf (runLog log e.run) e.req.dr.wBegin e.req.dr.wEnd f → f ∈ e.frag.frames

structure Inv (c : Cfg) (s : St) : Prop where
  sorted : StrictSorted id s.l
  idle : s.phase = .idle → s.l = []
  own : ∀ x ∈ s.l, x ∈ runLog s.log s.run
  past : ∀ a ∈ s.log, a.run ≤ s.run
  kept : s.phase ≠ .idle → ∀ t ∈ runLog s.log s.run, (∀ u ∈ runLog s.log s.run, u < t + c.m) → t ∈ s.l
  top : s.phase ≠ .idle → ∀ u ∈ runLog s.log s.run, ∃ z ∈ s.l, u ≤ z
  tame : s.phase ≠ .idle → Near c.m (runLog s.log s.run) → ∀ p ∈ runLog s.log s.run, p ∉ s.l → ∀ x ∈ s.l, p < x
  sent : ∀ e ∈ s.sent, SentOk c s.log e

theorem sentOk_append {c : Cfg} {log : List Arrival} {e : Sent} (h : SentOk c log e) (a : Arrival) :
    SentOk c (log ++ [a]) e := by
  by_cases ha : a.run = e.run
  · have hl : runLog (log ++ [a]) e.run = runLog log e.run ++ [a.ts] := by rw [runLog_append, if_pos ha]
    constructor
    · intro f hf
      obtain ⟨h1, h2⟩ := h.own f hf
      rw [hl]; exact ⟨List.mem_append_left _ h1, h2⟩
    · exact h.nodup
    · exact h.echo
    · exact h.err
    · intro hd
      obtain ⟨⟨x, h1, h2⟩, ⟨z, h3, h4⟩⟩ := h.ends hd
      rw [hl]
      exact ⟨⟨x, List.mem_append_left _ h1, h2⟩, ⟨z, List.mem_append_left _ h3, h4⟩⟩
    · rw [hl]
      intro ho hd f hf
      obtain ⟨-, z, h3, h4⟩ := h.ends hd
      have ho' := List.pairwise_append.1 ho
      refine h.exact ho'.1 hd f ⟨?_, hf.2⟩
      rcases List.mem_append.1 hf.1 with h1 | h1
      · exact h1
      · have h5 := ho'.2.2 z h3 a.ts (by simp)
        simp at h1
        have h6 := hf.2.2.2
        have : f.1 ≤ f.1 + f.2 * c.tick := Nat.le_add_right _ _
        omega
  · have hl : runLog (log ++ [a]) e.run = runLog log e.run := by rw [runLog_append, if_neg ha, List.append_nil]
    constructor
    · rw [hl]; exact h.own
    · exact h.nodup
    · exact h.echo
    · exact h.err
    · rw [hl]; exact h.ends
    · rw [hl]; exact h.exact

theorem inv_init (c : Cfg) : Inv c St.init :=
  ⟨List.Pairwise.nil, fun _ => rfl, by simp [St.init], by simp [St.init], by simp [St.init], by simp [St.init],
    by simp [St.init], by simp [St.init]⟩

theorem inv_receive {c : Cfg} {s : St} (inv : Inv c s) (t : Nat) (hp : s.phase ≠ .idle) :
    Inv c (receive s t) ∧ t ∈ (receive s t).l := by
  obtain ⟨i1, i2, i3⟩ := insert_spec id t s.l inv.sorted
  have hl : runLog (s.log ++ [⟨s.run, t, (SkipList.write id s.l t).2⟩]) s.run = runLog s.log s.run ++ [t] := by
    rw [runLog_append, if_pos rfl]
  have hsub : ∀ x ∈ s.l, x ∈ (SkipList.insert id t s.l).1 := fun x hx => (i3 x).2 (Or.inl hx)
  have htm : t ∈ (SkipList.insert id t s.l).1 := by
    by_cases hc : (SkipList.insert id t s.l).2 = true
    · exact (i3 t).2 (Or.inr ⟨rfl, hc⟩)
    · have : ¬ ∀ b ∈ s.l, id b ≠ id t := fun h => hc (i2.2 h)
      simp only [Classical.not_forall, ne_eq, Classical.not_not, id] at this
      obtain ⟨b, hb, rfl⟩ := this
      exact hsub b hb
  refine ⟨?_, htm⟩
  constructor
  · exact i1
  · intro h; exact absurd h hp
  · intro x hx
    show x ∈ runLog (s.log ++ [_]) s.run
    rw [hl]
    rcases (i3 x).1 hx with hx | ⟨rfl, -⟩
    · exact List.mem_append_left _ (inv.own x hx)
    · simp
  · intro a ha
    rcases List.mem_append.1 ha with ha | ha
    · exact inv.past a ha
    · simp at ha; subst ha; exact Nat.le_refl _
  · intro _
    show ∀ x ∈ runLog (s.log ++ [_]) s.run, (∀ u ∈ runLog (s.log ++ [_]) s.run, _) → _
    rw [hl]
    intro x hx hu
    rcases List.mem_append.1 hx with hx | hx
    · exact hsub x (inv.kept hp x hx (fun u hu' => hu u (List.mem_append_left _ hu')))
    · simp at hx; subst hx; exact htm
  · intro _
    show ∀ u ∈ runLog (s.log ++ [_]) s.run, _
    rw [hl]
    intro u hu
    rcases List.mem_append.1 hu with hu | hu
    · obtain ⟨z, hz, h⟩ := inv.top hp u hu; exact ⟨z, hsub z hz, h⟩
    · simp at hu; subst hu; exact ⟨u, htm, Nat.le_refl _⟩
  · intro _
    show Near c.m (runLog (s.log ++ [_]) s.run) → ∀ p ∈ runLog (s.log ++ [_]) s.run, _
    rw [hl]
    intro hn p hpm hpl x hx
    have hn' := List.pairwise_append.1 hn
    have hpt : p ≠ t := fun e => hpl (e ▸ htm)
    have hpm' : p ∈ runLog s.log s.run := by
      rcases List.mem_append.1 hpm with h | h
      · exact h
      · simp at h; exact absurd h hpt
    have hpl' : p ∉ s.l := fun h => hpl (hsub p h)
    rcases (i3 x).1 hx with hx | ⟨rfl, -⟩
    · exact inv.tame hp hn'.1 p hpm' hpl' x hx
    · have : ¬ ∀ u ∈ runLog s.log s.run, u < p + c.m := fun h => hpl' (inv.kept hp p hpm' h)
      simp only [Classical.not_forall, Nat.not_lt] at this
      obtain ⟨u, hu, hle⟩ := this
      have := hn'.2.2 u hu x (by simp)
      omega
  · intro e he; exact sentOk_append (inv.sent e he) _

theorem inv_clean {c : Cfg} (hm : 0 < c.m) {s s' : St} (inv : Inv c s) (hp : s.phase ≠ .idle)
    (he : clean c s = .ok s') : Inv c s' := by
  obtain ⟨r, rm, e, hap, hlast, -, hsame, htl, hsr⟩ := C52_daphne_cleanup id c.m hm s.l inv.sorted
  simp only [clean, e, Outcome.bind_ok] at he
  injection he with he; subst he
  have hsub : ∀ x ∈ r, x ∈ s.l := fun x hx => by rw [hap]; exact List.mem_append_right _ hx
  have hspl := inv.sorted
  rw [hap] at hspl
  have hord := (List.pairwise_append.1 hspl).2.2
  have hcases : ∀ x ∈ s.l, x ∈ r ∨ x ∈ rm := by
    intro x hx
    rw [hap] at hx
    rcases List.mem_append.1 hx with h | h
    · exact Or.inr h
    · exact Or.inl h
  -- what is removed lies `m` or more behind the newest
  have hold : ∀ x ∈ rm, ∀ z, s.l.getLast? = some z → x + c.m ≤ z := by
    intro x hx z hz
    cases rm with
    | nil => simp at hx
    | cons y ys =>
      rcases List.mem_cons.1 hx with h | h
      · subst h
        have hh : s.l.head? = some x := by rw [hap]; rfl
        have hspan : ¬ span id s.l ≤ c.m := by
          intro hle
          have := hsame hle
          rw [← this] at hap
          have := congrArg List.length hap
          simp at this
          omega
        simp [span, hz, hh] at hspan
        omega
      · have h1 := htl z hz x h
        have h2 := le_last inv.sorted hz (by rw [hap]; exact List.mem_append_left _ hx)
        simp only [id] at h1
        have hm' := hm
        omega
  constructor
  · exact hsr
  · intro h; exact absurd h hp
  · intro x hx; exact inv.own x (hsub x hx)
  · exact inv.past
  · intro _ t ht hu
    have htl := inv.kept hp t ht hu
    rcases hcases t htl with h | h
    · exact h
    · obtain ⟨z, hz⟩ : ∃ z, s.l.getLast? = some z :=
        ⟨_, List.getLast?_eq_some_getLast (List.ne_nil_of_mem htl)⟩
      have h1 := hold t h z hz
      have h2 := hu z (inv.own z (List.mem_of_getLast? hz))
      omega
  · intro _ u hu
    obtain ⟨y, hy, hle⟩ := inv.top hp u hu
    obtain ⟨z, hz⟩ : ∃ z, s.l.getLast? = some z :=
      ⟨_, List.getLast?_eq_some_getLast (List.ne_nil_of_mem hy)⟩
    have := le_last inv.sorted hz hy
    exact ⟨z, List.mem_of_getLast? (hlast.trans hz), by omega⟩
  · intro _ hn p hpm hpl x hx
    by_cases h : p ∈ s.l
    · rcases hcases p h with h | h
      · exact absurd h hpl
      · exact hord p h x hx
    · exact inv.tame hp hn p hpm h x (hsub x hx)
  · exact inv.sent

theorem inv_step {c : Cfg} (hc : 0 < c.nf) (hm : 0 < c.m) {s s' : St} (inv : Inv c s) (st : Step c s s') :
    Inv c s' := by
  have run_ne : s.phase = .running ∨ s.phase = .stopping → s.phase ≠ .idle := by
    intro h; rcases h with h | h <;> simp [h]
  cases st with
  | start hp =>
    have hempty : runLog s.log (s.run + 1) = [] := by
      simp only [runLog, List.map_eq_nil_iff, List.filter_eq_nil_iff, decide_eq_true_eq]
      intro a ha
      have := inv.past a ha
      omega
    have hl := inv.idle hp
    constructor
    · exact inv.sorted
    · intro h; simp [startCmd] at h
    · intro x hx; simp [startCmd, hl] at hx
    · intro a ha; have := inv.past a ha; simp only [startCmd]; omega
    · intro _ t ht; simp [startCmd, hempty] at ht
    · intro _ t ht; simp [startCmd, hempty] at ht
    · intro _ _ t ht; simp [startCmd, hempty] at ht
    · exact inv.sent
  | receive t hp => exact (inv_receive inv t hp).1
  | clean _ hp he => exact inv_clean hm inv (run_ne hp) he
  | issue dr hp => exact ⟨inv.sorted, inv.idle, inv.own, inv.past, inv.kept, inv.top, inv.tame, inv.sent⟩
  | reply x r fr h hp he hf =>
    refine ⟨inv.sorted, inv.idle, inv.own, inv.past, inv.kept, inv.top, inv.tame, ?_⟩
    intro e hes
    rcases List.mem_cons.1 hes with rfl | hes
    · obtain ⟨r', e', ev⟩ := evaluated c hc s.l inv.sorted (decide (s.phase = .running)) ⟨0, 0, 0, 0, 0, 0⟩ x.dr
      simp only [answer] at he
      rw [he] at e'; injection e' with e'; subst e'
      cases hd : fr.header.dataNotFound with
      | true =>
        have hnil := ev.err fr hf hd
        constructor
        · intro f hfm; simp [hnil] at hfm
        · show fr.frames.Nodup; rw [hnil]; exact List.nodup_nil
        · exact ev.echo fr hf
        · intro _; exact hnil
        · intro h; simp [hd] at h
        · intro _ h; simp [hd] at h
      | false =>
        obtain ⟨⟨a, ha, hab⟩, ⟨z, hz, hze⟩, hnd, hfr⟩ := ev.good fr hf hd
        constructor
        · intro f hfm
          obtain ⟨h1, h2⟩ := (hfr f).1 hfm
          exact ⟨inv.own _ h1, h2⟩
        · exact hnd
        · exact ev.echo fr hf
        · intro h; simp [hd] at h
        · intro _; exact ⟨⟨a, inv.own a ha, hab⟩, ⟨z, inv.own z hz, hze⟩⟩
        · intro ho _ f hfb
          refine (hfr f).2 ⟨?_, hfb.2⟩
          by_cases hfl : f.1 ∈ s.l
          · exact hfl
          · have := inv.tame (run_ne hp) ho.near f.1 hfb.1 hfl a ha
            have := hfb.2.2.1
            simp only at this
            omega
    · exact inv.sent e hes
  | notYet x r h hp he hf => exact ⟨inv.sorted, inv.idle, inv.own, inv.past, inv.kept, inv.top, inv.tame, inv.sent⟩
  | park x h => exact ⟨inv.sorted, inv.idle, inv.own, inv.past, inv.kept, inv.top, inv.tame, inv.sent⟩
  | reissue x h hw => exact ⟨inv.sorted, inv.idle, inv.own, inv.past, inv.kept, inv.top, inv.tame, inv.sent⟩
  | giveUp x h hw =>
    refine ⟨inv.sorted, inv.idle, inv.own, inv.past, inv.kept, inv.top, inv.tame, ?_⟩
    intro e hes
    rcases List.mem_cons.1 hes with rfl | hes
    · constructor
      · intro f hf; simp [createEmpty] at hf
      · simp [createEmpty]
      · exact ⟨rfl, rfl, rfl, rfl, rfl, rfl, rfl, rfl, rfl, rfl⟩
      · intro _; rfl
      · intro h; simp [createEmpty] at h
      · intro _ h; simp [createEmpty] at h
    · exact inv.sent e hes
  | stopCall hp =>
    have := run_ne (.inl hp)
    exact ⟨inv.sorted, by simp, inv.own, inv.past, fun _ => inv.kept this, fun _ => inv.top this,
      fun _ => inv.tame this, inv.sent⟩
  | waiterExit hp h => exact ⟨inv.sorted, inv.idle, inv.own, inv.past, inv.kept, inv.top, inv.tame, inv.sent⟩
  | join hp hw h1 h2 =>
    have := run_ne (.inr hp)
    exact ⟨inv.sorted, by simp, inv.own, inv.past, fun _ => inv.kept this, fun _ => inv.top this,
      fun _ => inv.tame this, inv.sent⟩
  | finish hp =>
    have hl : (finish s).l = [] := by simp [finish, SkipList.flush, SkipList.occupancy, SkipList.pop_eq_take]
    constructor
    · rw [hl]; exact List.Pairwise.nil
    · intro _; exact hl
    · rw [hl]; simp
    · exact inv.past
    · intro h; simp [finish] at h
    · intro h; simp [finish] at h
    · intro h; simp [finish] at h
    · exact inv.sent

theorem inv_reach {c : Cfg} (hc : 0 < c.nf) (hm : 0 < c.m) {s : St} (h : Reach c s) : Inv c s := by
  induction h with
  | init => exact inv_init c
  | step s s' _ st ih => exact inv_step hc hm ih st

/-! ### Concrete histories -/

/-- Photon detectors: twelve frames, sixteen ticks apart; the limit of the code. -/
def daphne : Cfg := ⟨16, 12, ⟨2, 0, 1⟩, 4, daphneMaxTsDiff⟩

/-- The first run gets one payload; the second 2000, then the older 1500, then one that is 10,000,300 ticks later than the
oldest, whereupon a cleanup drops the oldest, then one more. -/
theorem demo_run : ∃ s, Reach daphne s ∧ s.phase = .running ∧ s.run = 2 ∧
    runLog s.log s.run = [2000, 1500, 10001800, 10001992] ∧ s.l = [2000, 10001800, 10001992] := by
  have r0 : Reach daphne _ := .init
  have r1 := Reach.step _ _ r0 (.start _ rfl)
  have r2 := Reach.step _ _ r1 (.receive _ 7000 (by simp [startCmd]))
  have r3 := Reach.step _ _ r2 (.stopCall _ rfl)
  have r4 := Reach.step _ _ r3 (.waiterExit _ rfl rfl)
  have r5 := Reach.step _ _ r4 (.join _ rfl rfl rfl rfl)
  have r6 := Reach.step _ _ r5 (.finish _ rfl)
  have r7 := Reach.step _ _ r6 (.start _ rfl)
  have r8 := Reach.step _ _ r7 (.receive _ 2000 (by simp [startCmd]))
  have r9 := Reach.step _ _ r8 (.receive _ 1500 (by simp [startCmd, receive]))
  have r10 := Reach.step _ _ r9 (.receive _ 10001800 (by simp [startCmd, receive]))
  have r11 := Reach.step _ _ r10 (.clean _ _ (Or.inl rfl) rfl)
  have r12 := Reach.step _ _ r11 (.receive _ 10001992 (by simp [startCmd, receive]))
  exact ⟨_, r12, rfl, rfl, rfl, rfl⟩

/-! ### Property C111 -/

/-- **C111 (no crash)** In every state of every execution, payloads arriving in any order, a cleanup and the evaluation of any
request are free of undefined behaviour. -/
theorem C111_no_crash (c : Cfg) (hc : 0 < c.nf) (hm : 0 < c.m) (s : St) (h : Reach c s) (dr : Request) :
    (∃ s', clean c s = .ok s') ∧ ∃ r, answer c s dr = .ok r := by
  have inv := inv_reach hc hm h
  obtain ⟨r, rm, e, -⟩ := C52_daphne_cleanup id c.m hm s.l inv.sorted
  obtain ⟨r', e', -⟩ := evaluated c hc s.l inv.sorted (decide (s.phase = .running)) ⟨0, 0, 0, 0, 0, 0⟩ dr
  exact ⟨⟨{ s with l := r }, by simp [clean, e]⟩, r', e'⟩

/-- **C111 (retention)** During a run, whatever the order of arrival, the buffer holds only payloads of this run, in order of
time and each timestamp once, and all of those that lie less than the limit behind the newest. -/
theorem C111_retained (c : Cfg) (hc : 0 < c.nf) (hm : 0 < c.m) (s : St) (h : Reach c s) (hp : s.phase ≠ .idle) :
    s.l.Pairwise (· < ·) ∧ (∀ t ∈ s.l, t ∈ runLog s.log s.run) ∧
      ∀ t ∈ runLog s.log s.run, (∀ u ∈ runLog s.log s.run, u < t + c.m) → t ∈ s.l := by
  have inv := inv_reach hc hm h
  exact ⟨inv.sorted, inv.own, inv.kept hp⟩

/-- **C111 (between runs)** Nothing of a run is left in the buffer when stop has returned. -/
theorem C111_empty (c : Cfg) (hc : 0 < c.nf) (hm : 0 < c.m) (s : St) (h : Reach c s) (hp : s.phase = .idle) : s.l = [] :=
  (inv_reach hc hm h).idle hp

example : ∃ s, Reach daphne s ∧ s.phase ≠ .idle ∧ (∀ u ∈ runLog s.log s.run, u < 2000 + daphne.m) ∧
    2000 ∈ runLog s.log s.run ∧ 1500 ∈ runLog s.log s.run ∧ 1500 ∉ s.l := by
  obtain ⟨s, h1, h2, -, h4, h5⟩ := demo_run
  exact ⟨s, h1, by simp [h2], by rw [h4]; decide, by rw [h4]; decide, by rw [h4]; decide, by rw [h5]; decide⟩

/-- **C111 (recent windows, partial)** Payloads arriving in any order: if some payload of the run begins at or before the window
and less than the limit behind the newest, and some payload begins before neither end of the window, the request is
answered at its first evaluation, without the error bit and with exactly the frames in the window, each once, of all payloads
of the run that begin inside it. Missing: frames of a payload that begins before the window
(`C111_straddling_counterexample`). -/
theorem C111_recent_available_partial (c : Cfg) (hc : 0 < c.nf) (hm : 0 < c.m) (s : St) (h : Reach c s)
    (hp : s.phase ≠ .idle) (dr : Request) (a z : Nat) (ha : a ∈ runLog s.log s.run)
    (hr : ∀ u ∈ runLog s.log s.run, u < a + c.m) (hab : a ≤ dr.wBegin) (hz : z ∈ runLog s.log s.run)
    (hzb : dr.wBegin ≤ z) (hze : dr.wEnd ≤ z) :
    ∃ r fr, answer c s dr = .ok r ∧ r.fragment = some fr ∧ fr.header.dataNotFound = false ∧ fr.frames.Nodup ∧
      ∀ f, f ∈ fr.frames ↔ Begun c.tick c.nf (runLog s.log s.run) dr.wBegin dr.wEnd f := by
  have inv := inv_reach hc hm h
  obtain ⟨r, e, ev⟩ := evaluated c hc s.l inv.sorted (decide (s.phase = .running)) ⟨0, 0, 0, 0, 0, 0⟩ dr
  obtain ⟨y, hy, hyz⟩ := inv.top hp z hz
  obtain ⟨fr, hf, hd⟩ := ev.covered a (inv.kept hp a ha hr) hab y hy (by omega) y hy (by omega)
  obtain ⟨-, -, hnd, hfr⟩ := ev.good fr hf hd
  refine ⟨r, fr, e, hf, hd, hnd, ?_⟩
  intro f
  rw [hfr f]
  constructor
  · rintro ⟨h1, h2⟩; exact ⟨inv.own _ h1, h2⟩
  · rintro ⟨h1, h2⟩
    refine ⟨inv.kept hp _ h1 ?_, h2⟩
    intro u hu
    have := hr u hu
    have := h2.2.1
    omega

example : ∃ s, Reach daphne s ∧ s.phase ≠ .idle ∧ 10001800 ∈ runLog s.log s.run ∧
    (∀ u ∈ runLog s.log s.run, u < 10001800 + daphne.m) ∧ 10001992 ∈ runLog s.log s.run ∧
    ∃ r fr, answer daphne s ⟨1, 10001800, 10001800, 10001900, 2, 0⟩ = .ok r ∧ r.fragment = some fr ∧
      fr.frames.length = 7 := by
  obtain ⟨s, h1, h2, -, h4, h5⟩ := demo_run
  refine ⟨s, h1, by simp [h2], by rw [h4]; decide, by rw [h4]; decide, by rw [h4]; decide, ?_⟩
  simp only [answer, h5, h2]
  exact ⟨_, _, rfl, rfl, by decide⟩

/-- **C111 (every answer, partial)** If no payload of the run comes the limit or more behind one that came before it, every
answer without the error bit, whenever the request is evaluated, carries exactly the frames in the window, each once, of all
payloads of the run so far that begin inside the window. Missing: later stragglers (`C111_straggler_counterexample`) and
frames of a payload that begins before the window. -/
theorem C111_answer_exact_partial (c : Cfg) (hc : 0 < c.nf) (hm : 0 < c.m) (s : St) (h : Reach c s)
    (hp : s.phase ≠ .idle) (hn : Near c.m (runLog s.log s.run)) (dr : Request) (r : Result Nat) (fr : Fragment Nat)
    (he : answer c s dr = .ok r) (hf : r.fragment = some fr) (hd : fr.header.dataNotFound = false) :
    fr.frames.Nodup ∧ ∀ f, f ∈ fr.frames ↔ Begun c.tick c.nf (runLog s.log s.run) dr.wBegin dr.wEnd f := by
  have inv := inv_reach hc hm h
  obtain ⟨r', e, ev⟩ := evaluated c hc s.l inv.sorted (decide (s.phase = .running)) ⟨0, 0, 0, 0, 0, 0⟩ dr
  simp only [answer] at he
  rw [he] at e; injection e with e; subst e
  obtain ⟨⟨a, ha, hab⟩, -, hnd, hfr⟩ := ev.good fr hf hd
  refine ⟨hnd, fun f => ?_⟩
  rw [hfr f]
  constructor
  · rintro ⟨h1, h2⟩; exact ⟨inv.own _ h1, h2⟩
  · rintro ⟨h1, h2⟩
    refine ⟨?_, h2⟩
    by_cases hfl : f.1 ∈ s.l
    · exact hfl
    · have := inv.tame hp hn f.1 h1 hfl a ha
      have := h2.2.1
      omega

/-- **C111 (windows that begin with a payload)** With the same arrivals, if no payload of the run that begins before the window
reaches into it, an answer without the error bit carries exactly the frames of the window. -/
theorem C111_whole_window (c : Cfg) (hc : 0 < c.nf) (hm : 0 < c.m) (s : St) (h : Reach c s)
    (hp : s.phase ≠ .idle) (hn : Near c.m (runLog s.log s.run)) (dr : Request) (r : Result Nat) (fr : Fragment Nat)
    (he : answer c s dr = .ok r) (hf : r.fragment = some fr) (hd : fr.header.dataNotFound = false)
    (hst : ∀ p ∈ runLog s.log s.run, p < dr.wBegin → p + (c.nf - 1) * c.tick < dr.wBegin) (f : Nat × Nat) :
    f ∈ fr.frames ↔ InWindow c.tick c.nf (runLog s.log s.run) dr.wBegin dr.wEnd f := by
  rw [(C111_answer_exact_partial c hc hm s h hp hn dr r fr he hf hd).2 f]
  constructor
  · rintro ⟨h1, h2, h3, h4⟩; exact ⟨h1, h2, by omega, h4⟩
  · rintro ⟨h1, h2, h3, h4⟩
    refine ⟨h1, h2, ?_, h4⟩
    rcases Nat.lt_or_ge f.1 dr.wBegin with h5 | h5
    · have h6 := hst f.1 h1 h5
      have : f.2 * c.tick ≤ (c.nf - 1) * c.tick := Nat.mul_le_mul_right _ (by omega)
      omega
    · exact h5

/-- The history above keeps to this bound though 1500 comes after 2000. -/
example : ∃ s r fr, Reach daphne s ∧ s.phase ≠ .idle ∧ Near daphne.m (runLog s.log s.run) ∧
    answer daphne s ⟨1, 10001800, 9000000, 10001900, 2, 0⟩ = .ok r ∧ r.fragment = some fr ∧
    fr.header.dataNotFound = false ∧ fr.frames.length = 7 ∧
    ∀ p ∈ runLog s.log s.run, p < 9000000 → p + (daphne.nf - 1) * daphne.tick < 9000000 := by
  obtain ⟨s, h1, h2, -, h4, h5⟩ := demo_run
  refine ⟨s, _, _, h1, by simp [h2], ?_, by simp only [answer, h5, h2]; rfl, rfl, rfl, by decide, ?_⟩
  · rw [h4]; simp [Near, daphne, daphneMaxTsDiff]
  · rw [h4]; decide

/-- **C111 (everything sent, partial)** Every fragment ever sent names its request; with the error bit it is empty; without, it
carries only frames, each once, of payloads received in the run in which it was sent that begin inside its window, and if
the payloads of that run come in order of time, all of those, counting the ones that arrive after it was sent. Missing: frames
of a payload that begins before the window. -/
theorem C111_sent_partial (c : Cfg) (hc : 0 < c.nf) (hm : 0 < c.m) (s : St) (h : Reach c s) (e : Sent)
    (he : e ∈ s.sent) :
    Echoes e.frag.header c.geo c.ft e.req.dr ∧ (e.frag.header.dataNotFound = true → e.frag.frames = []) ∧
      e.frag.frames.Nodup ∧
      (∀ f ∈ e.frag.frames, Begun c.tick c.nf (runLog s.log e.run) e.req.dr.wBegin e.req.dr.wEnd f) ∧
      (InOrder (runLog s.log e.run) → e.frag.header.dataNotFound = false →
        ∀ f, f ∈ e.frag.frames ↔ Begun c.tick c.nf (runLog s.log e.run) e.req.dr.wBegin e.req.dr.wEnd f) := by
  have ok := (inv_reach hc hm h).sent e he
  exact ⟨ok.echo, ok.err, ok.nodup, ok.own, fun ho hd f => ⟨ok.own f, ok.exact ho hd f⟩⟩

/-- A request is answered, more payloads arrive, and the run is over. -/
example : ∃ s e, Reach daphne s ∧ e ∈ s.sent ∧ e.frag.header.dataNotFound = false ∧ e.frag.frames.length = 19 ∧
    runLog s.log e.run = [1000, 1192, 5000, 5192] ∧ s.phase = .idle := by
  have r0 : Reach daphne _ := .init
  have r1 := Reach.step _ _ r0 (.start _ rfl)
  have r2 := Reach.step _ _ r1 (.receive _ 1000 (by simp [startCmd]))
  have r3 := Reach.step _ _ r2 (.receive _ 1192 (by simp [startCmd, receive]))
  have r4 := Reach.step _ _ r3 (.receive _ 5000 (by simp [startCmd, receive]))
  have r5 := Reach.step _ _ r4 (.issue _ ⟨1, 1000, 1000, 1300, 1, 0⟩ (Or.inl rfl))
  have r6 := Reach.step _ _ r5 (.reply _ ⟨⟨1, 1000, 1000, 1300, 1, 0⟩, 1⟩ _ _ (by simp [receive, startCmd, St.init])
    (Or.inl rfl) rfl rfl)
  have r7 := Reach.step _ _ r6 (.receive _ 5192 (by simp [startCmd, receive]))
  have r8 := Reach.step _ _ r7 (.stopCall _ rfl)
  have r9 := Reach.step _ _ r8 (.waiterExit _ rfl rfl)
  have r10 := Reach.step _ _ r9 (.join _ rfl rfl rfl rfl)
  have r11 := Reach.step _ _ r10 (.finish _ rfl)
  exact ⟨_, _, r11, by exact List.mem_singleton.2 rfl, rfl, by decide, rfl, rfl⟩

/-! ### Evaluations -/

theorem reach_link {c : Cfg} {limit : Nat} {dr : Request} {x : RSt} (h : RReach c limit dr x) :
    Reach c x.s ∧ x.s.phase = .running := by
  induction h with
  | issued s h hp => exact ⟨h, hp⟩
  | step x x' h st ih =>
    cases st with
    | link s' hp st hp' => exact ⟨.step _ _ ih.1 st, hp'⟩
    | reply r fr h he hf => exact ih
    | notYet r h he hf => exact ih
    | park h => exact ih
    | pass r h => exact ih

theorem mem_step {c : Cfg} {s s' : St} (st : Step c s s') (hp : s.phase = .running) {t : Nat}
    (h : t ∈ runLog s.log s.run) : t ∈ runLog s'.log s'.run := by
  cases st with
  | start hp' => simp [hp] at hp'
  | receive u hp' =>
    show t ∈ runLog (s.log ++ [_]) s.run
    rw [runLog_append]; exact List.mem_append_left _ h
  | clean _ hp' he =>
    simp only [clean] at he
    cases hc : daphneCleanup id c.m s.l with
    | ub w => simp [hc] at he
    | throws w => simp [hc] at he
    | ok l => simp only [hc, Outcome.bind_ok] at he; injection he with he; subst he; exact h
  | _ => exact h

theorem newest_mem {c : Cfg} (hc : 0 < c.nf) (hm : 0 < c.m) {s : St} (h : Reach c s) :
    newest s = 0 ∨ newest s ∈ runLog s.log s.run := by
  have inv := inv_reach hc hm h
  unfold newest SkipList.back
  cases hl : s.l.getLast? with
  | none => left; rfl
  | some z => right; exact inv.own z (List.mem_of_getLast? hl)

/-- Once a payload later than the window has been received in the run, an evaluation gives an answer. -/
theorem answers {c : Cfg} (hc : 0 < c.nf) (hm : 0 < c.m) {s : St} (h : Reach c s) (hp : s.phase = .running)
    {dr : Request} (hw : dr.wBegin ≤ dr.wEnd) {t : Nat} (ht : t ∈ runLog s.log s.run) (he : dr.wEnd < t)
    {r : Result Nat} (ha : answer c s dr = .ok r) : r.fragment ≠ none := by
  have inv := inv_reach hc hm h
  obtain ⟨r', e, ev⟩ := evaluated c hc s.l inv.sorted (decide (s.phase = .running)) ⟨0, 0, 0, 0, 0, 0⟩ dr
  simp only [answer] at ha
  rw [ha] at e; injection e with e; subst e
  intro hno
  obtain ⟨-, z, hz, htop, hlt⟩ := ev.waits hno
  obtain ⟨y, hy, hty⟩ := inv.top (by simp [hp]) t ht
  have := htop y hy
  omega

/-- What is known of the request in each place. -/
def Bounded (limit : Nat) (dr : Request) (log : List Nat) (x : RSt) : Prop :=
  match x.place with
  | .pool => (x.evals = 0 ∧ x.passes = 0) ∨ (x.evals = 1 ∧ x.passes ≤ limit + 1 ∧ ∃ t ∈ log, dr.wEnd < t)
  | .toPark => x.evals = 1 ∧ x.passes = 0
  | .waiting r => x.evals = 1 ∧ x.passes = r ∧ r ≤ limit
  | .answered _ => x.evals ≤ 2 ∧ x.passes ≤ limit + 1

theorem bounded {c : Cfg} {limit : Nat} (hc : 0 < c.nf) (hm : 0 < c.m) {dr : Request} (hw : dr.wBegin ≤ dr.wEnd)
    {x : RSt} (h : RReach c limit dr x) : Bounded limit dr (runLog x.s.log x.s.run) x := by
  induction h with
  | issued s h hp => exact .inl ⟨rfl, rfl⟩
  | step x x' h st ih =>
    unfold Bounded at *
    cases st with
    | link s' hp st hp' =>
      cases hpl : x.place with
      | pool =>
        simp only [hpl] at *
        rcases ih with h1 | ⟨h1, h2, t, h3, h4⟩
        · exact .inl h1
        · exact .inr ⟨h1, h2, t, mem_step st hp h3, h4⟩
      | toPark => simp only [hpl] at *; exact ih
      | waiting r => simp only [hpl] at *; exact ih
      | answered b => simp only [hpl] at *; exact ih
    | reply r fr hp he hfr =>
      simp only [hp] at ih
      rcases ih with ⟨h1, h2⟩ | ⟨h1, h2, -⟩
      · exact ⟨by simp [h1], by simp [h2]⟩
      · exact ⟨by simp [h1], h2⟩
    | notYet r hp he hfr =>
      simp only [hp] at ih
      rcases ih with ⟨h1, h2⟩ | ⟨h1, h2, t, h3, h4⟩
      · exact ⟨by simp [h1], h2⟩
      · exact absurd hfr (answers hc hm (reach_link h).1 (reach_link h).2 hw h3 h4 he)
    | park hp =>
      simp only [hp] at ih
      exact ⟨ih.1, ih.2, Nat.zero_le _⟩
    | pass r hp =>
      simp only [hp] at ih
      obtain ⟨h1, h2, h3⟩ := ih
      unfold Retry.treat
      by_cases c1 : dr.wEnd < newest x.s
      · simp only [if_pos c1]
        refine .inr ⟨h1, by omega, newest x.s, ?_, c1⟩
        rcases newest_mem hc hm (reach_link h).1 with h0 | h0
        · omega
        · exact h0
      · by_cases c2 : r ≥ limit
        · simp only [if_neg c1, if_pos c2]
          exact ⟨by omega, by omega⟩
        · simp only [if_neg c1, if_neg c2]
          exact ⟨h1, by omega, by omega⟩

/-- **C111 (evaluations, partial)** Payloads arriving in any order: a request for a window that does not end before it begins
is evaluated at most twice and met by at most `limit + 1` passes over the waiting list, and after its second evaluation it
has been answered. Missing: windows that end before they begin (`C111_inverted_counterexample`). -/
theorem C111_answered_partial (c : Cfg) (limit : Nat) (hc : 0 < c.nf) (hm : 0 < c.m) (dr : Request)
    (hw : dr.wBegin ≤ dr.wEnd) (x : RSt) (h : RReach c limit dr x) :
    x.evals ≤ 2 ∧ x.passes ≤ limit + 1 ∧ (x.evals = 2 → ∃ b, x.place = .answered b) ∧
      (x.passes = limit + 1 → (∃ b, x.place = .answered b) ∨ x.place = .pool) := by
  have b := bounded hc hm hw h
  unfold Bounded at b
  cases hp : x.place with
  | pool =>
    simp only [hp] at b
    rcases b with ⟨h1, h2⟩ | ⟨h1, h2, -⟩
    · exact ⟨by omega, by omega, fun h => by omega, fun _ => .inr rfl⟩
    · exact ⟨by omega, h2, fun h => by omega, fun _ => .inr rfl⟩
  | toPark =>
    simp only [hp] at b
    exact ⟨by omega, by omega, fun h => by omega, fun h => by omega⟩
  | waiting r =>
    simp only [hp] at b
    exact ⟨by omega, by omega, fun h => by omega, fun h => by omega⟩
  | answered t =>
    simp only [hp] at b
    exact ⟨b.1, b.2, fun _ => ⟨t, rfl⟩, fun _ => .inl ⟨t, rfl⟩⟩

/-- Once a payload at or after both ends of the window has been received in the run, an evaluation gives an answer. -/
theorem answers_any {c : Cfg} (hc : 0 < c.nf) (hm : 0 < c.m) {s : St} (h : Reach c s) (hp : s.phase = .running)
    {dr : Request} {t : Nat} (ht : t ∈ runLog s.log s.run) (hb : dr.wBegin ≤ t) (he : dr.wEnd ≤ t)
    {r : Result Nat} (ha : answer c s dr = .ok r) : r.fragment ≠ none := by
  have inv := inv_reach hc hm h
  obtain ⟨r', e, ev⟩ := evaluated c hc s.l inv.sorted (decide (s.phase = .running)) ⟨0, 0, 0, 0, 0, 0⟩ dr
  simp only [answer] at ha
  rw [ha] at e; injection e with e; subst e
  intro hno
  obtain ⟨-, z, hz, htop, hlt⟩ := ev.waits hno
  obtain ⟨y, hy, hty⟩ := inv.top (by simp [hp]) t ht
  have := htop y hy
  omega

/-- What can happen from one state to a later one. -/
inductive Later (c : Cfg) (limit : Nat) (dr : Request) (x : RSt) : RSt → Prop where
  | refl : Later c limit dr x x
  | step (y z : RSt) (h : Later c limit dr x y) (st : RStep c limit dr y z) : Later c limit dr x z

theorem later_reach {c : Cfg} {limit : Nat} {dr : Request} {x y : RSt} (hx : RReach c limit dr x)
    (h : Later c limit dr x y) : RReach c limit dr y := by
  induction h with
  | refl => exact hx
  | step y z _ st ih => exact .step _ _ ih st

theorem retries_le {c : Cfg} {limit : Nat} {dr : Request} {x : RSt} (h : RReach c limit dr x) :
    ∀ r, x.place = .waiting r → r ≤ limit := by
  induction h with
  | issued s h hp => intro r hr; cases hr
  | step x x' h st ih =>
    cases st with
    | link s' hp st hp' => exact ih
    | reply r fr h he hf => intro r hr; cases hr
    | notYet r h he hf => intro r hr; cases hr
    | park h => intro r hr; injection hr with hr; omega
    | pass r h =>
      intro r' hr
      simp only [Retry.treat] at hr
      split at hr
      · cases hr
      · split at hr
        · cases hr
        · injection hr with hr; omega

/-- Evaluations and passes since the state `x`. -/
def Since (limit : Nat) (x y : RSt) : Prop :=
  match y.place with
  | .pool => y.evals = x.evals ∧ y.passes ≤ x.passes + limit + 1
  | .toPark => y.evals = x.evals ∧ y.passes = x.passes
  | .waiting r => y.evals = x.evals ∧ y.passes ≤ x.passes + r ∧ r ≤ limit
  | .answered _ => y.evals ≤ x.evals + 1 ∧ y.passes ≤ x.passes + limit + 1

theorem since {c : Cfg} {limit : Nat} (hc : 0 < c.nf) (hm : 0 < c.m) {dr : Request} {x y : RSt} (hx : RReach c limit dr x)
    {t : Nat} (ht : t ∈ runLog x.s.log x.s.run) (hb : dr.wBegin ≤ t) (he : dr.wEnd ≤ t)
    (h : Later c limit dr x y) : Since limit x y ∧ t ∈ runLog y.s.log y.s.run := by
  induction h with
  | refl =>
    refine ⟨?_, ht⟩
    unfold Since
    cases hp : x.place with
    | pool => exact ⟨rfl, by omega⟩
    | toPark => exact ⟨rfl, rfl⟩
    | waiting r => exact ⟨rfl, by omega, retries_le hx r hp⟩
    | answered b => exact ⟨by omega, by omega⟩
  | step y z h st ih =>
    obtain ⟨ih, hm'⟩ := ih
    cases st with
    | link s' hp st hp' => exact ⟨ih, mem_step st hp hm'⟩
    | reply r fr hp ha hfr =>
      refine ⟨?_, hm'⟩
      unfold Since at *
      simp only [hp] at ih
      exact ⟨by simp [ih.1], ih.2⟩
    | notYet r hp ha hfr =>
      have hl := reach_link (later_reach hx h)
      exact absurd hfr (answers_any hc hm hl.1 hl.2 hm' hb he ha)
    | park hp =>
      refine ⟨?_, hm'⟩
      unfold Since at *
      simp only [hp] at ih
      exact ⟨ih.1, by simp [ih.2], Nat.zero_le _⟩
    | pass r hp =>
      refine ⟨?_, hm'⟩
      unfold Since at *
      simp only [hp] at ih
      obtain ⟨h1, h2, h3⟩ := ih
      unfold Retry.treat
      by_cases c1 : dr.wEnd < newest y.s
      · simp only [if_pos c1]
        exact ⟨h1, by omega⟩
      · by_cases c2 : r ≥ limit
        · simp only [if_neg c1, if_pos c2]
          exact ⟨by omega, by omega⟩
        · simp only [if_neg c1, if_neg c2]
          exact ⟨h1, by omega, by omega⟩

/-- **C111 (evaluations, every window)** Whatever the window, also one that ends before it begins, and whatever the order of
arrival: from the moment at which a payload at or after both ends of the window has been received, the request is evaluated at
most once more and met by at most `limit + 1` further passes; after that evaluation it has been answered. -/
theorem C111_every_window (c : Cfg) (limit : Nat) (hc : 0 < c.nf) (hm : 0 < c.m) (dr : Request) (x y : RSt)
    (hx : RReach c limit dr x) (t : Nat) (ht : t ∈ runLog x.s.log x.s.run) (hb : dr.wBegin ≤ t) (he : dr.wEnd ≤ t)
    (h : Later c limit dr x y) :
    y.evals ≤ x.evals + 1 ∧ y.passes ≤ x.passes + limit + 1 ∧
      (y.evals = x.evals + 1 → ∃ b, y.place = .answered b) := by
  obtain ⟨b, -⟩ := since hc hm hx ht hb he h
  unfold Since at b
  cases hp : y.place with
  | pool => simp only [hp] at b; exact ⟨by omega, by omega, fun h => by omega⟩
  | toPark => simp only [hp] at b; exact ⟨by omega, by omega, fun h => by omega⟩
  | waiting r => simp only [hp] at b; exact ⟨by omega, by omega, fun h => by omega⟩
  | answered a => simp only [hp] at b; exact ⟨b.1, b.2, fun _ => ⟨a, rfl⟩⟩

/-- The window [5100, 100) of `C111_inverted_counterexample` goes round; when 5192 has arrived its next evaluation answers it. -/
example : ∃ x y, RReach daphne 0 ⟨1, 5000, 5100, 100, 5, 0⟩ x ∧ Later daphne 0 ⟨1, 5000, 5100, 100, 5, 0⟩ x y ∧
    x.evals = 2 ∧ 5192 ∈ runLog x.s.log x.s.run ∧ y.evals = 3 ∧ y.place = .answered false := by
  have r0 : Reach daphne _ := .init
  have r1 := Reach.step _ _ r0 (.start _ rfl)
  have r2 := Reach.step _ _ r1 (.receive _ 1000 (by simp [startCmd]))
  have r3 := Reach.step _ _ r2 (.receive _ 5000 (by simp [startCmd, receive]))
  have x0 : RReach daphne 0 ⟨1, 5000, 5100, 100, 5, 0⟩ _ := .issued _ r3 rfl
  have x1 := RReach.step _ _ x0 (.notYet _ _ rfl rfl rfl)
  have x2 := RReach.step _ _ x1 (.park _ rfl)
  have x3 := RReach.step _ _ x2 (.pass _ 0 rfl)
  have x4 := RReach.step _ _ x3 (.notYet _ _ rfl rfl rfl)
  have x5 := RReach.step _ _ x4 (.link _ _ rfl (.receive _ 5192 (by simp [startCmd, receive])) rfl)
  refine ⟨_, _, x5, .step _ _ (.step _ _ (.step _ _ .refl (.park _ rfl)) (.pass _ 0 rfl)) (.reply _ _ _ rfl rfl rfl),
    rfl, ?_, rfl, rfl⟩
  show 5192 ∈ [1000, 5000, 5192]
  simp

/-- **C111 (progress)** Until it is answered, nothing holds a request up. -/
theorem C111_progress (c : Cfg) (limit : Nat) (hc : 0 < c.nf) (hm : 0 < c.m) (dr : Request)
    (x : RSt) (h : RReach c limit dr x) (ho : ∀ b, x.place ≠ .answered b) :
    ∃ x', RStep c limit dr x x' ∧ x'.s = x.s ∧ x'.place ≠ x.place := by
  cases hp : x.place with
  | pool =>
    obtain ⟨-, r, e⟩ := C111_no_crash c hc hm x.s (reach_link h).1 dr
    cases hfr : r.fragment with
    | none => exact ⟨_, .notYet x r hp e hfr, rfl, by simp⟩
    | some fr => exact ⟨_, .reply x r fr hp e hfr, rfl, by simp⟩
  | toPark => exact ⟨_, .park x hp, rfl, by simp [Retry.parked]⟩
  | waiting r =>
    refine ⟨_, .pass x r hp, rfl, ?_⟩
    simp only [Retry.treat]
    split
    · simp
    · split <;> simp
  | answered b => exact absurd hp (ho b)

/-- **C111 (after stop)** Once the run is over, a request that is evaluated is answered there and then: none is put on the
waiting list any more. -/
theorem C111_after_stop (c : Cfg) (hc : 0 < c.nf) (hm : 0 < c.m) (s : St) (h : Reach c s) (hp : s.phase ≠ .running)
    (dr : Request) : ∃ r fr, answer c s dr = .ok r ∧ r.fragment = some fr := by
  obtain ⟨r, e, ev⟩ := evaluated c hc s.l (inv_reach hc hm h).sorted (decide (s.phase = .running)) ⟨0, 0, 0, 0, 0, 0⟩ dr
  cases hf : r.fragment with
  | none => exact absurd (of_decide_eq_true (ev.waits hf).1) hp
  | some fr => exact ⟨r, fr, e, hf⟩

/-- Non-vacuity: after the stop of the second run of `demo_run` a window beyond the newest payload is answered; before, it has
to wait. -/
example : ∃ s, Reach daphne s ∧ s.phase = .running ∧ Reach daphne { s with phase := .stopping } ∧
    (∃ r, answer daphne s ⟨1, 0, 10002000, 10003000, 1, 0⟩ = .ok r ∧ r.fragment = none) ∧
    ∃ r fr, answer daphne { s with phase := .stopping } ⟨1, 0, 10002000, 10003000, 1, 0⟩ = .ok r ∧
      r.fragment = some fr := by
  obtain ⟨s, h1, h2, -, h4, h5⟩ := demo_run
  have h6 := Reach.step _ _ h1 (.stopCall s h2)
  refine ⟨s, h1, h2, h6, ?_, C111_after_stop daphne (by decide) (by decide) _ h6 (by simp) _⟩
  simp only [answer, h5, h2]
  exact ⟨_, rfl, rfl⟩

/-- [4990, 5300) is issued when 1000 and 5000 have arrived; it is parked, left on the list by one pass, and answered by its
second evaluation after 1500, 5400 and a cleanup. -/
example : ∃ x, RReach daphne 5 ⟨1, 5000, 4990, 5300, 5, 0⟩ x ∧ runLog x.s.log x.s.run = [5000, 1000, 1500, 5400] ∧
    x.evals = 2 ∧ x.passes = 2 ∧ x.place = .answered false := by
  have r0 : Reach daphne _ := .init
  have r1 := Reach.step _ _ r0 (.start _ rfl)
  have r2 := Reach.step _ _ r1 (.receive _ 5000 (by simp [startCmd]))
  have r3 := Reach.step _ _ r2 (.receive _ 1000 (by simp [startCmd, receive]))
  have x0 : RReach daphne 5 ⟨1, 5000, 4990, 5300, 5, 0⟩ _ := .issued _ r3 rfl
  have x1 := RReach.step _ _ x0 (.notYet _ _ rfl rfl rfl)
  have x2 := RReach.step _ _ x1 (.park _ rfl)
  have x3 := RReach.step _ _ x2 (.pass _ 0 rfl)
  have x4 := RReach.step _ _ x3 (.link _ _ rfl (.receive _ 1500 (by simp [startCmd, receive])) rfl)
  have x5 := RReach.step _ _ x4 (.link _ _ rfl (.receive _ 5400 (by simp [startCmd, receive])) rfl)
  have x6 := RReach.step _ _ x5 (.link _ _ rfl (.clean _ _ (Or.inl rfl) rfl) rfl)
  have x7 := RReach.step _ _ x6 (.pass _ 1 rfl)
  have x8 := RReach.step _ _ x7 (.reply _ _ _ rfl rfl rfl)
  exact ⟨_, x8, rfl, rfl, rfl, rfl⟩

/-! ### No request is lost -/

/-- Specification: all requests the link has taken: waiting for a thread, evaluated and about to be parked, parked, answered. -/
def held (s : St) : List Issued := s.pool ++ (s.toPark ++ (s.waiting ++ s.sent.map (·.req)))

/-- Between runs no thread has a request, and the waiting-list thread is there from start to stop. -/
structure Quiet (s : St) : Prop where
  pool : s.phase = .idle ∨ s.phase = .joined → s.pool = [] ∧ s.toPark = [] ∧ s.waiterGone = true
  waiter : s.phase = .running → s.waiterGone = false

theorem clean_eq {c : Cfg} {s s' : St} (he : clean c s = .ok s') : ∃ l, s' = { s with l := l } := by
  unfold clean at he
  cases h : SkipList.daphneCleanup id c.m s.l with
  | ok l => rw [h] at he; simp only [Outcome.bind_ok] at he; injection he with he; exact ⟨l, he.symm⟩
  | ub w => rw [h] at he; cases he
  | throws e => rw [h] at he; cases he

theorem quiet_reach {c : Cfg} {s : St} (h : Reach c s) : Quiet s := by
  induction h with
  | init => exact ⟨fun _ => ⟨rfl, rfl, rfl⟩, by intro h; cases h⟩
  | step s s' _ st ih =>
    obtain ⟨ip, iw⟩ := ih
    cases st with
    | start hp => exact ⟨by simp [startCmd], fun _ => rfl⟩
    | receive t hp => exact ⟨ip, iw⟩
    | clean _ hp he =>
      obtain ⟨l, rfl⟩ := clean_eq he
      exact ⟨ip, iw⟩
    | issue dr hp => exact ⟨by rcases hp with hp | hp <;> simp [hp], iw⟩
    | reply x r fr h hp he hf => exact ⟨by rcases hp with hp | hp <;> simp [hp], iw⟩
    | notYet x r h hp he hf => exact ⟨by rcases hp with hp | hp <;> simp [hp], iw⟩
    | park x h =>
      refine ⟨fun hh => ?_, iw⟩
      rw [(ip hh).2.1] at h
      cases h
    | reissue x h hw =>
      refine ⟨fun hh => ?_, iw⟩
      rw [(ip hh).2.2] at hw
      cases hw
    | giveUp x h hw => exact ⟨ip, iw⟩
    | stopCall hp => exact ⟨by simp, by simp⟩
    | waiterExit hp h => exact ⟨by simp [hp], by simp [hp]⟩
    | join hp hw h1 h2 => exact ⟨fun _ => ⟨h1, h2, hw⟩, by simp⟩
    | finish hp => exact ⟨fun _ => ip (.inr hp), by simp [finish]⟩

/-- Executions in which no request is put on the waiting list after the waiting-list thread has left. -/
inductive InTime (c : Cfg) : St → Prop where
  | init : InTime c St.init
  | step (s s' : St) (h : InTime c s) (st : Step c s s') (hp : s.waiterGone = true → s'.waiting = s.waiting) : InTime c s'

theorem InTime.reach {c : Cfg} {s : St} (h : InTime c s) : Reach c s := by
  induction h with
  | init => exact .init
  | step s s' _ st _ ih => exact .step s s' ih st

/-- All requests not answered yet are of the present run; none waits when the thread has left. -/
structure Own (s : St) : Prop where
  empty : s.waiterGone = true → s.waiting = []
  cur : ∀ x, x ∈ s.pool ∨ x ∈ s.toPark ∨ x ∈ s.waiting → x.run = s.run
  sent : ∀ e ∈ s.sent, e.req.run = e.run

theorem own_inTime {c : Cfg} {s : St} (h : InTime c s) : Own s := by
  induction h with
  | init => exact ⟨fun _ => rfl, by simp [St.init], by simp [St.init]⟩
  | step s s' h st hp ih =>
    have hq := quiet_reach h.reach
    obtain ⟨ie, ic, is⟩ := ih
    cases st with
    | start hi =>
      obtain ⟨h1, h2, h3⟩ := hq.pool (.inl hi)
      refine ⟨by simp [startCmd], fun x hx => ?_, is⟩
      simp [startCmd, h2, ie h3] at hx
    | receive t hp => exact ⟨ie, ic, is⟩
    | clean _ hp he =>
      obtain ⟨l, rfl⟩ := clean_eq he
      exact ⟨ie, ic, is⟩
    | issue dr hp =>
      refine ⟨ie, fun x hx => ?_, is⟩
      simp only [List.mem_cons] at hx
      rcases hx with (rfl | hx) | hx
      · rfl
      · exact ic x (.inl hx)
      · exact ic x (.inr hx)
    | reply x r fr hm hp he hf =>
      refine ⟨ie, fun y hy => ic y (hy.imp List.mem_of_mem_erase id), fun e he' => ?_⟩
      rcases List.mem_cons.1 he' with rfl | he'
      · exact ic x (.inl hm)
      · exact is e he'
    | notYet x r hm hp he hf =>
      refine ⟨ie, fun y hy => ?_, is⟩
      simp only [List.mem_cons] at hy
      rcases hy with hy | (rfl | hy) | hy
      · exact ic y (.inl (List.mem_of_mem_erase hy))
      · exact ic y (.inl hm)
      · exact ic y (.inr (.inl hy))
      · exact ic y (.inr (.inr hy))
    | park x hm =>
      refine ⟨fun hw => (hp hw).trans (ie hw), fun y hy => ?_, is⟩
      simp only [List.mem_cons] at hy
      rcases hy with hy | hy | rfl | hy
      · exact ic y (.inl hy)
      · exact ic y (.inr (.inl (List.mem_of_mem_erase hy)))
      · exact ic y (.inr (.inl hm))
      · exact ic y (.inr (.inr hy))
    | reissue x hm hw =>
      refine ⟨fun hw' => absurd hw (by simp [show s.waiterGone = true from hw']), fun y hy => ?_, is⟩
      simp only [List.mem_cons] at hy
      rcases hy with (rfl | hy) | hy | hy
      · exact ic y (.inr (.inr hm))
      · exact ic y (.inl hy)
      · exact ic y (.inr (.inl hy))
      · exact ic y (.inr (.inr (List.mem_of_mem_erase hy)))
    | giveUp x hm hw =>
      refine ⟨fun hw' => absurd hw (by simp [show s.waiterGone = true from hw']),
        fun y hy => ic y (hy.imp id (Or.imp id List.mem_of_mem_erase)), fun e he' => ?_⟩
      rcases List.mem_cons.1 he' with rfl | he'
      · exact ic x (.inr (.inr hm))
      · exact is e he'
    | stopCall hp => exact ⟨ie, ic, is⟩
    | waiterExit hp h => exact ⟨fun _ => h, ic, is⟩
    | join hp hw h1 h2 => exact ⟨ie, ic, is⟩
    | finish hp => exact ⟨ie, ic, is⟩

/-- **C111 (every request by the end of its run, partial)** As long as no request is put on the waiting list after the
waiting-list thread has left, every request ever taken has been answered, in its own run, when stop has returned. Missing:
requests parked late (`C111_left_behind_counterexample`). -/
theorem C111_all_answered_partial (c : Cfg) (s : St) (h : InTime c s) (hp : s.phase = .idle) (x : Issued)
    (hx : x ∈ held s) : ∃ e ∈ s.sent, e.req = x ∧ e.run = x.run := by
  obtain ⟨h1, h2, h3⟩ := (quiet_reach h.reach).pool (.inl hp)
  have o := own_inTime h
  simp only [held, h1, h2, o.empty h3, List.nil_append, List.mem_map] at hx
  obtain ⟨e, he, rfl⟩ := hx
  exact ⟨e, he, rfl, (o.sent e he).symm⟩

/-- A request is parked, given up by the waiting-list thread at stop, and the run ends. -/
example : ∃ s, InTime daphne s ∧ s.phase = .idle ∧ (⟨⟨1, 6000, 6000, 6100, 5, 0⟩, 1⟩ : Issued) ∈ held s := by
  have r0 : InTime daphne _ := .init
  have r1 := InTime.step _ _ r0 (.start _ rfl) (fun _ => rfl)
  have r2 := InTime.step _ _ r1 (.receive _ 1000 (by simp [startCmd])) (fun _ => rfl)
  have r3 := InTime.step _ _ r2 (.issue _ ⟨1, 6000, 6000, 6100, 5, 0⟩ (Or.inl rfl)) (fun _ => rfl)
  have r4 := InTime.step _ _ r3 (.notYet _ ⟨⟨1, 6000, 6000, 6100, 5, 0⟩, 1⟩ _ (by simp [receive, startCmd, St.init])
    (Or.inl rfl) rfl rfl) (fun _ => rfl)
  have r5 := InTime.step _ _ r4 (.park _ ⟨⟨1, 6000, 6000, 6100, 5, 0⟩, 1⟩ (by simp [receive, startCmd, St.init]))
    (fun h => by cases h)
  have r6 := InTime.step _ _ r5 (.stopCall _ rfl) (fun _ => rfl)
  have r7 := InTime.step _ _ r6 (.giveUp _ ⟨⟨1, 6000, 6000, 6100, 5, 0⟩, 1⟩ (by simp [receive, startCmd, St.init]) rfl)
    (fun h => by cases h)
  have r8 := InTime.step _ _ r7 (.waiterExit _ rfl rfl) (fun _ => rfl)
  have r9 := InTime.step _ _ r8 (.join _ rfl rfl rfl rfl) (fun _ => rfl)
  have r10 := InTime.step _ _ r9 (.finish _ rfl) (fun _ => rfl)
  exact ⟨_, r10, rfl, by simp [held, finish]⟩

/-- **C111 is false of the code** at stop: a request parked after the waiting-list thread has left is not answered when stop has
returned. -/
theorem C111_left_behind_counterexample : ∃ s, Reach daphne s ∧ s.phase = .idle ∧ s.sent = [] ∧
    s.waiting = [⟨⟨1, 6000, 6000, 6100, 5, 0⟩, 1⟩] := by
  have r0 : Reach daphne _ := .init
  have r1 := Reach.step _ _ r0 (.start _ rfl)
  have r2 := Reach.step _ _ r1 (.receive _ 1000 (by simp [startCmd]))
  have r3 := Reach.step _ _ r2 (.issue _ ⟨1, 6000, 6000, 6100, 5, 0⟩ (Or.inl rfl))
  have r4 := Reach.step _ _ r3 (.notYet _ ⟨⟨1, 6000, 6000, 6100, 5, 0⟩, 1⟩ _ (by simp [receive, startCmd, St.init])
    (Or.inl rfl) rfl rfl)
  have r5 := Reach.step _ _ r4 (.stopCall _ rfl)
  have r6 := Reach.step _ _ r5 (.waiterExit _ rfl rfl)
  have r7 := Reach.step _ _ r6 (.park _ ⟨⟨1, 6000, 6000, 6100, 5, 0⟩, 1⟩ (by simp [receive, startCmd, St.init]))
  have r8 := Reach.step _ _ r7 (.join _ rfl rfl rfl rfl)
  have r9 := Reach.step _ _ r8 (.finish _ rfl)
  exact ⟨_, r9, rfl, rfl, rfl⟩

/-- **C111 (no request lost)** Whatever happens next, in any execution over any number of runs, the requests the link has taken
are the same ones, each as often as before, or one more of the present run. -/
theorem C111_conserved (c : Cfg) (s s' : St) (h : Reach c s) (st : Step c s s') :
    (held s').Perm (held s) ∨ ∃ dr, (held s').Perm (⟨dr, s.run⟩ :: held s) := by
  have hq := quiet_reach h
  cases st with
  | start hp =>
    left
    simp only [held, startCmd, (hq.pool (.inl hp)).1]
    exact .refl _
  | receive t hp => exact .inl (.refl _)
  | clean _ hp he =>
    obtain ⟨l, rfl⟩ := clean_eq he
    exact .inl (.refl _)
  | issue dr hp => exact .inr ⟨dr, .refl _⟩
  | reply x r fr hx hp he hf =>
    left
    rw [List.perm_iff_count]
    intro y
    have := (List.perm_cons_erase hx).count_eq y
    simp only [held, List.map_cons, List.count_append, List.count_cons] at this ⊢
    omega
  | notYet x r hx hp he hf =>
    left
    rw [List.perm_iff_count]
    intro y
    have := (List.perm_cons_erase hx).count_eq y
    simp only [held, List.count_append, List.count_cons] at this ⊢
    omega
  | park x hx =>
    left
    rw [List.perm_iff_count]
    intro y
    have := (List.perm_cons_erase hx).count_eq y
    simp only [held, List.count_append, List.count_cons] at this ⊢
    omega
  | reissue x hx hw =>
    left
    rw [List.perm_iff_count]
    intro y
    have := (List.perm_cons_erase hx).count_eq y
    simp only [held, List.count_append, List.count_cons] at this ⊢
    omega
  | giveUp x hx hw =>
    left
    rw [List.perm_iff_count]
    intro y
    have := (List.perm_cons_erase hx).count_eq y
    simp only [held, List.map_cons, List.count_append, List.count_cons] at this ⊢
    omega
  | stopCall hp => exact .inl (.refl _)
  | waiterExit hp h => exact .inl (.refl _)
  | join hp hw h1 h2 => exact .inl (.refl _)
  | finish hp => exact .inl (.refl _)

/-- Specification: some steps of the link. -/
inductive Steps (c : Cfg) : St → St → Prop where
  | refl (s : St) : Steps c s s
  | tail (s t u : St) (h : Steps c s t) (st : Step c t u) : Steps c s u

/-- **C111 (no request stuck)** During a run, every request that is not answered can be answered without a payload arriving and
without disturbing another request. -/
theorem C111_not_stuck (c : Cfg) (hc : 0 < c.nf) (hm : 0 < c.m) (s : St) (h : Reach c s) (hp : s.phase = .running)
    (x : Issued) (hx : x ∈ s.pool ∨ x ∈ s.toPark ∨ x ∈ s.waiting) :
    ∃ s' fr, Steps c s s' ∧ s'.sent = ⟨x, s.run, fr⟩ :: s.sent ∧ s'.l = s.l ∧ s'.log = s.log ∧ s'.phase = .running ∧
      (held s').Perm (held s) := by
  have hw := (quiet_reach h).waiter hp
  have hgive : ∀ t : St, Steps c s t → Reach c t → x ∈ t.waiting → t.waiterGone = false → t.sent = s.sent →
      t.l = s.l → t.log = s.log → t.phase = .running → t.run = s.run → (held t).Perm (held s) →
      ∃ s' fr, Steps c s s' ∧ s'.sent = ⟨x, s.run, fr⟩ :: s.sent ∧ s'.l = s.l ∧ s'.log = s.log ∧ s'.phase = .running ∧
        (held s').Perm (held s) := by
    intro t h1 h2 h3 h4 h5 h6 h7 h8 h9 h10
    refine ⟨_, createEmpty Nat c.geo c.ft x.dr, .tail _ _ _ h1 (.giveUp t x h3 h4), by simp only [h5, h9], h6, h7, h8, ?_⟩
    refine List.Perm.trans ?_ h10
    rw [List.perm_iff_count]
    intro y
    have := (List.perm_cons_erase h3).count_eq y
    simp only [held, List.map_cons, List.count_append, List.count_cons] at this ⊢
    omega
  have hpark : ∀ t : St, Steps c s t → Reach c t → x ∈ t.toPark → t.waiterGone = false → t.sent = s.sent →
      t.l = s.l → t.log = s.log → t.phase = .running → t.run = s.run → (held t).Perm (held s) →
      ∃ s' fr, Steps c s s' ∧ s'.sent = ⟨x, s.run, fr⟩ :: s.sent ∧ s'.l = s.l ∧ s'.log = s.log ∧ s'.phase = .running ∧
        (held s').Perm (held s) := by
    intro t h1 h2 h3 h4 h5 h6 h7 h8 h9 h10
    have st := Step.park (c := c) t x h3
    refine hgive _ (.tail _ _ _ h1 st) (.step _ _ h2 st) (by simp) h4 h5 h6 h7 h8 h9 ?_
    refine List.Perm.trans ?_ h10
    rw [List.perm_iff_count]
    intro y
    have := (List.perm_cons_erase h3).count_eq y
    simp only [held, List.count_append, List.count_cons] at this ⊢
    omega
  rcases hx with hx | hx | hx
  · obtain ⟨-, r, e⟩ := C111_no_crash c hc hm s h x.dr
    cases hf : r.fragment with
    | some fr =>
      refine ⟨_, fr, .tail _ _ _ (.refl _) (.reply s x r fr hx (.inl hp) e hf), rfl, rfl, rfl, hp, ?_⟩
      rw [List.perm_iff_count]
      intro y
      have := (List.perm_cons_erase hx).count_eq y
      simp only [held, List.map_cons, List.count_append, List.count_cons] at this ⊢
      omega
    | none =>
      have st := Step.notYet s x r hx (.inl hp) e hf
      refine hpark _ (.tail _ _ _ (.refl _) st) (.step _ _ h st) (by simp) hw rfl rfl rfl hp rfl ?_
      rw [List.perm_iff_count]
      intro y
      have := (List.perm_cons_erase hx).count_eq y
      simp only [held, List.count_append, List.count_cons] at this ⊢
      omega
  · exact hpark s (.refl _) h hx hw rfl rfl rfl hp rfl (.refl _)
  · exact hgive s (.refl _) h hx hw rfl rfl rfl hp rfl (.refl _)

/-- Non-vacuity: a request beyond the newest payload is taken in the second run of `demo_run`. -/
example : ∃ s, Reach daphne s ∧ s.phase = .running ∧ ⟨⟨1, 0, 10002000, 10003000, 1, 0⟩, s.run⟩ ∈ s.pool := by
  obtain ⟨s, h1, h2, -⟩ := demo_run
  exact ⟨_, .step _ _ h1 (.issue s ⟨1, 0, 10002000, 10003000, 1, 0⟩ (.inl h2)), h2, by simp⟩

/-! ### What does not hold -/

/-- **C111 is false of the code** for a window that begins inside a payload: of the payload at 1000 the frames from 1104 on are
not sent though the fragment has no error bit, and five of its frames lie in the window. -/
theorem C111_straddling_counterexample : ∃ s r fr, Reach daphne s ∧ InOrder (runLog s.log s.run) ∧
    answer daphne s ⟨1, 1100, 1100, 1900, 1, 0⟩ = .ok r ∧ r.fragment = some fr ∧ fr.header.dataNotFound = false ∧
    fr.frames = [] ∧ InWindow 16 12 (runLog s.log s.run) 1100 1900 (1000, 7) := by
  have r0 : Reach daphne _ := .init
  have r1 := Reach.step _ _ r0 (.start _ rfl)
  have r2 := Reach.step _ _ r1 (.receive _ 1000 (by simp [startCmd]))
  have r3 := Reach.step _ _ r2 (.receive _ 2000 (by simp [startCmd, receive]))
  refine ⟨_, _, _, r3, ?_, rfl, rfl, rfl, by decide, ?_⟩
  · show InOrder [1000, 2000]
    simp [InOrder]
  · show InWindow 16 12 [1000, 2000] 1100 1900 (1000, 7)
    simp [InWindow]

/-- **C111 is false of the code** for stragglers: 2000 and 3000 have been cleaned away when 1000 arrives, more than the limit
behind the newest. The request for [2000, 2100) then gets a fragment without error bit and without the frames of 2000. -/
theorem C111_straggler_counterexample : ∃ s r fr, Reach daphne s ∧ 2000 ∈ runLog s.log s.run ∧
    answer daphne s ⟨1, 2000, 2000, 2100, 1, 0⟩ = .ok r ∧ r.fragment = some fr ∧ fr.header.dataNotFound = false ∧
    fr.frames = [] ∧ Begun 16 12 (runLog s.log s.run) 2000 2100 (2000, 0) := by
  have r0 : Reach daphne _ := .init
  have r1 := Reach.step _ _ r0 (.start _ rfl)
  have r2 := Reach.step _ _ r1 (.receive _ 2000 (by simp [startCmd]))
  have r3 := Reach.step _ _ r2 (.receive _ 3000 (by simp [startCmd, receive]))
  have r4 := Reach.step _ _ r3 (.receive _ 20000000 (by simp [startCmd, receive]))
  have r5 := Reach.step _ _ r4 (.clean _ _ (Or.inl rfl) rfl)
  have r6 := Reach.step _ _ r5 (.receive _ 1000 (by simp [startCmd, receive]))
  refine ⟨_, _, _, r6, ?_, rfl, rfl, rfl, by decide, ?_⟩
  · show 2000 ∈ [2000, 3000, 20000000, 1000]
    simp
  · show Begun 16 12 [2000, 3000, 20000000, 1000] 2000 2100 (2000, 0)
    simp [Begun]

/-- **C111 is false of the code** for windows that end before they begin: as long as no payload as late as the beginning of the
window arrives, such a request is taken from the waiting list and put back again without ever counting a retry: any number of
evaluations is reached, and the request is neither answered nor given up, although the link allows no retries at all. -/
theorem C111_inverted_counterexample (k : Nat) : ∃ x, RReach daphne 0 ⟨1, 5000, 5100, 100, 5, 0⟩ x ∧ x.evals = k ∧
    x.passes = k ∧ x.place = .pool ∧ x.s.l = [1000, 5000] ∧ x.s.phase = .running := by
  induction k with
  | zero =>
    have r0 : Reach daphne _ := .init
    have r1 := Reach.step _ _ r0 (.start _ rfl)
    have r2 := Reach.step _ _ r1 (.receive _ 1000 (by simp [startCmd]))
    have r3 := Reach.step _ _ r2 (.receive _ 5000 (by simp [startCmd, receive]))
    exact ⟨_, .issued _ r3 rfl, rfl, rfl, rfl, rfl, rfl⟩
  | succ k ih =>
    obtain ⟨⟨s, p, e, n⟩, h, rfl, h2, h3, h4, h5⟩ := ih
    simp only at h2 h3 h4 h5
    subst h2 h3
    have hans : ∃ r, answer daphne s ⟨1, 5000, 5100, 100, 5, 0⟩ = .ok r ∧ r.fragment = none := by
      simp only [answer, h4, h5]
      exact ⟨_, rfl, rfl⟩
    obtain ⟨r, hr, hn⟩ := hans
    have x1 := RReach.step _ _ h (.notYet _ r rfl hr hn)
    have x2 := RReach.step _ _ x1 (.park _ rfl)
    have x3 := RReach.step _ _ x2 (.pass _ 0 rfl)
    refine ⟨_, x3, rfl, rfl, ?_, h4, h5⟩
    simp [Retry.treat, newest, SkipList.back, h4]

end Verif.ListLife
