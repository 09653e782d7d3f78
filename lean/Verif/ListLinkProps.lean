import Verif.ListLinkModel
import Verif.SkipListProps
import Verif.DataReqProps
import Verif.FormatProps
/- Properties C81 and C82: links with a sorted buffer; C52 with payloads arriving during the cleanup. -/
namespace Verif.ListLink
open Verif.DataReq Verif.SkipList
variable {P : Type}

/-! ### Single requests -/

theorem dropWhile_eq_filter (ts : P → Nat) (k : Nat) : ∀ l : List P, StrictSorted ts l →
    fromLowerBound ts l k = l.filter (fun a => decide (k ≤ ts a))
  | [], _ => rfl
  | a :: l, h => by
    have h1 := (List.pairwise_cons.1 h).1
    have h2 := (List.pairwise_cons.1 h).2
    by_cases hk : ts a < k
    · have : ¬ k ≤ ts a := by omega
      simpa [fromLowerBound, hk, this] using dropWhile_eq_filter ts k l h2
    · have hk' : k ≤ ts a := by omega
      have : l.filter (fun a => decide (k ≤ ts a)) = l := by
        rw [List.filter_eq_self]
        intro x hx
        have := h1 x hx
        simp; omega
      simp [fromLowerBound, hk, hk', this]

theorem extract_eq_wanted (T : PayloadType P) (b e : Nat) : ∀ l : List P, StrictSorted T.ts l → WellFormed T l →
    extractSkip T b e l = wanted T l b e
  | [], _, _ => rfl
  | p :: l, hs, hw => by
    have h1 := (List.pairwise_cons.1 hs).1
    have h2 := (List.pairwise_cons.1 hs).2
    have hw2 : WellFormed T l := fun x hx => hw x (by simp [hx])
    unfold extractSkip
    split
    · rw [pieces_eq T b e p (hw p (by simp)), extract_eq_wanted T b e l h2 hw2]
      simp [wanted, allFrames, List.filter_append]
    · next hc =>
      symm
      rw [wanted, List.filter_eq_nil_iff]
      intro f hf
      rw [mem_allFrames] at hf
      have hwf := hw f.1 hf.1
      have : T.ts p ≤ T.ts f.1 := by
        rcases List.mem_cons.1 hf.1 with e | hm
        · rw [e]; exact Nat.le_refl _
        · exact Nat.le_of_lt (h1 _ hm)
      simp only [frameTs, hwf.2 f.2 hf.2, Bool.and_eq_true, decide_eq_true_eq]
      omega

theorem ends {l : List P} (h : l ≠ []) : ∃ a z, l.head? = some a ∧ l.getLast? = some z := by
  cases l with
  | nil => exact absurd rfl h
  | cons a l => exact ⟨a, _, rfl, List.getLast?_eq_some_getLast (by simp)⟩

/-- **C81 (no crash, classification)** On a sorted buffer every request is answered without undefined
behaviour; the outcome is the one specified for the other buffers (C12), provided the search object's time
does not lie behind the newest payload. -/
theorem C81_classification (T : PayloadType P) (geo : GeoId) (ft : Nat) (l : List P)
    (hs : StrictSorted T.ts l) (key : Nat) (running : Bool) (c : Counters) (dr : Request)
    (hk : ∀ z, l.getLast? = some z → dr.wEnd ≤ T.ts z → key ≤ T.ts z) :
    ∃ r, request T geo ft l key running c dr = .ok r ∧
      r.code = classify (bounds T l) running dr.wBegin dr.wEnd ∧
      r.counters = countersAfter (bounds T l) running dr.wBegin dr.wEnd c ∧
      (r.fragment = none ↔ r.code = .notYet) ∧
      (∀ f, r.fragment = some f → f.header = { createHeader geo ft dr with dataNotFound := decide (r.code ≠ .found) } ∧
        (r.code ≠ .found → f.frames = [])) := by
  by_cases hl : l = []
  · subst hl
    exact ⟨_, rfl, rfl, rfl, by simp, by intro f hf; cases hf; exact ⟨rfl, fun _ => rfl⟩⟩
  · obtain ⟨a, z, ha, hz⟩ := ends hl
    have hocc : SkipList.occupancy l ≠ 0 := by simpa [SkipList.occupancy] using hl
    simp only [request, if_pos hocc, SkipList.front, SkipList.back, ha, hz, bounds, classify, countersAfter]
    by_cases h1 : T.ts a ≤ dr.wBegin ∧ dr.wEnd ≤ T.ts z
    · have hne : (fromLowerBound T.ts l key).isEmpty = false := by
        rw [dropWhile_eq_filter T.ts key l hs]
        have : z ∈ l.filter (fun a => decide (key ≤ T.ts a)) := by
          rw [List.mem_filter]
          exact ⟨List.mem_of_getLast? hz, by simpa using hk z hz h1.2⟩
        cases hf : l.filter (fun a => decide (key ≤ T.ts a)) with
        | nil => rw [hf] at this; simp at this
        | cons x xs => rfl
      have h1' : ¬ dr.wBegin < T.ts a := by omega
      simp only [if_pos h1]
      simp only [hne, Bool.false_eq_true, if_false, h1', h1.2, if_true]
      exact ⟨_, rfl, rfl, rfl, by simp, by intro f hf; cases hf; exact ⟨rfl, fun h => absurd rfl h⟩⟩
    · simp only [if_neg h1]
      by_cases h2 : T.ts a > dr.wBegin
      · simp only [if_pos h2]
        exact ⟨_, rfl, rfl, rfl, by simp, by intro f hf; cases hf; exact ⟨rfl, fun _ => rfl⟩⟩
      · have h2' : ¬ dr.wBegin < T.ts a := h2
        have h3 : T.ts z < dr.wEnd := by omega
        have h4 : ¬ dr.wEnd ≤ T.ts z := by omega
        simp only [if_neg h2, if_neg h2', if_pos h3, if_neg h4]
        cases running
        · exact ⟨_, rfl, rfl, rfl, by simp, by intro f hf; cases hf; exact ⟨rfl, fun _ => rfl⟩⟩
        · exact ⟨_, rfl, rfl, rfl, by simp, by intro f hf; cases hf⟩

/-- What a found request carries: exactly the frames in the window of the stored payloads that do not begin
before the search object's time. -/
theorem found_frames (T : PayloadType P) (geo : GeoId) (ft : Nat) (l : List P) (hs : StrictSorted T.ts l)
    (hw : WellFormed T l) (key : Nat) (running : Bool) (c : Counters) (dr : Request) (r : Result P)
    (f : Fragment P) (hr : request T geo ft l key running c dr = .ok r) (hc : r.code = .found)
    (hf : r.fragment = some f) :
    f.frames = wanted T (l.filter (fun p => decide (key ≤ T.ts p))) dr.wBegin dr.wEnd ∧
    (∃ a, l.head? = some a ∧ T.ts a ≤ dr.wBegin) ∧ f.header = createHeader geo ft dr := by
  by_cases hl : l = []
  · subst hl
    simp only [request, SkipList.occupancy, List.length_nil, ne_eq, not_true_eq_false, if_false, Outcome.ok.injEq] at hr
    subst hr
    simp at hc
  · obtain ⟨a, z, ha, hz⟩ := ends hl
    have hocc : SkipList.occupancy l ≠ 0 := by simpa [SkipList.occupancy] using hl
    simp only [request, if_pos hocc, SkipList.front, SkipList.back, ha, hz] at hr
    split at hr
    · next h1 =>
      split at hr
      · split at hr <;> (simp only [Outcome.ok.injEq] at hr; subst hr; simp at hc)
      · simp only [Outcome.ok.injEq] at hr
        subst hr
        simp only [Option.some.injEq] at hf
        subst hf
        refine ⟨?_, ⟨a, ha, h1.1⟩, rfl⟩
        rw [dropWhile_eq_filter T.ts key l hs]
        exact extract_eq_wanted T _ _ _ (hs.sublist List.filter_sublist)
          (fun p hp => hw p (List.mem_filter.1 hp).1)
    · split at hr
      · simp only [Outcome.ok.injEq] at hr; subst hr; simp at hc
      · split at hr
        · split at hr <;> (simp only [Outcome.ok.injEq] at hr; subst hr; simp at hc)
        · simp only [Outcome.ok.injEq] at hr; subst hr; simp at hc

theorem wanted_filter (T : PayloadType P) (l : List P) (keep : P → Bool) (b e : Nat)
    (h : ∀ p ∈ l, keep p = false → ∀ i, i < T.nf p → ¬ (b ≤ T.fts p i ∧ T.fts p i < e)) :
    wanted T (l.filter keep) b e = wanted T l b e := by
  induction l with
  | nil => rfl
  | cons p l ih =>
    have ih := ih (fun q hq => h q (by simp [hq]))
    have hcons : ∀ l' : List P, wanted T (p :: l') b e =
        ((List.range (T.nf p)).map (fun i => (p, i))).filter
          (fun f => decide (b ≤ frameTs T f) && decide (frameTs T f < e)) ++ wanted T l' b e := by
      intro l'; simp [wanted, allFrames, List.filter_append]
    cases hk : keep p with
    | true => rw [List.filter_cons_of_pos hk, hcons, hcons, ih]
    | false =>
      rw [List.filter_cons_of_neg (by simp [hk]), hcons, ih]
      have : ((List.range (T.nf p)).map (fun i => (p, i))).filter
          (fun f => decide (b ≤ frameTs T f) && decide (frameTs T f < e)) = [] := by
        rw [List.filter_eq_nil_iff]
        intro f hf
        simp only [List.mem_map, List.mem_range] at hf
        obtain ⟨i, hi, rfl⟩ := hf
        have := h p (by simp) hk i hi
        simp only [Bool.and_eq_true, decide_eq_true_eq]
        exact this
      rw [this, List.nil_append]

/-- **C81 (exact, partial)** A found request carries exactly the stored frames of its window, each once, if no
payload that begins before the search object's time reaches into the window. Photon detectors (`key` is the
beginning of the window): no payload begun before the window reaches into it. PACMAN: the uninitialised search
object happens not to lie behind the first message of the window. Missing: all other windows
(`C81_straddling_counterexample`, `C64_pacman_found_counterexample`). -/
theorem C81_exact_partial (T : PayloadType P) (geo : GeoId) (ft : Nat) (l : List P) (hs : StrictSorted T.ts l)
    (hw : WellFormed T l) (key : Nat) (running : Bool) (c : Counters) (dr : Request) (r : Result P)
    (f : Fragment P) (hr : request T geo ft l key running c dr = .ok r) (hc : r.code = .found)
    (hf : r.fragment = some f)
    (hst : ∀ p ∈ l, T.ts p < key → T.ts p + (T.nf p - 1) * T.tick < dr.wBegin) :
    f.frames = wanted T l dr.wBegin dr.wEnd := by
  rw [(found_frames T geo ft l hs hw key running c dr r f hr hc hf).1]
  apply wanted_filter
  intro p hp hk i hi
  simp only [decide_eq_false_iff_not, Nat.not_le] at hk
  have := hst p hp hk
  rw [(hw p hp).2 i hi]
  have : i * T.tick ≤ (T.nf p - 1) * T.tick := Nat.mul_le_mul_right _ (by omega)
  omega

/-- Photon-detector payloads named by their first timestamp: twelve frames, sixteen ticks apart. -/
def pds : PayloadType Nat := ⟨id, fun _ => 12, fun p i => p + i * 16, 16⟩

def dr0 (b e : Nat) : Request := ⟨1, b, b, e, 1, 0⟩

/-- The hypotheses are met by payloads with a gap and a window of two of them. -/
example : ∃ r f, request pds ⟨2, 0, 1⟩ 4 [1000, 2000, 2192, 5000] 2000 true ⟨0, 0, 0, 0, 0, 0⟩ (dr0 2000 3000) = .ok r ∧
    r.code = .found ∧ r.fragment = some f ∧ f.frames.length = 24 ∧
    ∀ p ∈ [1000, 2000, 2192, 5000], pds.ts p < 2000 → pds.ts p + (pds.nf p - 1) * pds.tick < (dr0 2000 3000).wBegin :=
  ⟨_, _, rfl, rfl, rfl, by decide, by decide⟩

/-- **C81 is false of the code** in general: of the payload begun before the window nothing is returned. -/
theorem C81_straddling_counterexample :
    ∃ r f, request pds ⟨2, 0, 1⟩ 4 [1000, 2000] 1100 true ⟨0, 0, 0, 0, 0, 0⟩ (dr0 1100 1900) = .ok r ∧
      r.code = .found ∧ r.fragment = some f ∧ f.header.dataNotFound = false ∧ f.frames = [] ∧
      (wanted pds [1000, 2000] 1100 1900).length = 5 :=
  ⟨_, _, rfl, rfl, rfl, rfl, by decide, by decide⟩

/-! ### Runs -/

/-- The first payload received with its timestamp. -/
def FirstWithTime (ts : P → Nat) (hist : List P) (p : P) : Prop :=
  ∃ pre post, hist = pre ++ p :: post ∧ ∀ q ∈ pre, ts q ≠ ts p

theorem first_snoc (ts : P → Nat) (hist : List P) (a p : P) :
    FirstWithTime ts (hist ++ [a]) p ↔ FirstWithTime ts hist p ∨ (p = a ∧ ∀ q ∈ hist, ts q ≠ ts a) := by
  constructor
  · rintro ⟨pre, post, e, h⟩
    rcases List.eq_nil_or_concat post with rfl | ⟨post', x, rfl⟩
    · have := List.append_inj' e rfl
      obtain ⟨rfl, e2⟩ := this
      injection e2 with e2; subst e2
      exact Or.inr ⟨rfl, h⟩
    · left
      rw [List.concat_eq_append] at e
      have e' : hist ++ [a] = (pre ++ p :: post') ++ [x] := by rw [e]; simp
      have := List.append_inj' e' rfl
      exact ⟨pre, post', this.1, h⟩
  · rintro (⟨pre, post, rfl, h⟩ | ⟨rfl, h⟩)
    · exact ⟨pre, post ++ [a], by simp, h⟩
    · exact ⟨hist, [], rfl, h⟩

/-- The state after a run is well formed for any arrivals: sorted, made of received payloads. -/
structure Basic (ts : P → Nat) (s : St P) : Prop where
  sorted : StrictSorted ts s.l
  sub : ∀ p, p ∈ s.l ∨ p ∈ s.gone → p ∈ s.hist

theorem step_basic (ts : P → Nat) (m : Nat) (hm : 0 < m) (s : St P) (h : Basic ts s) (ev : Ev P) :
    ∃ s', step ts m s ev = .ok s' ∧ Basic ts s' := by
  cases ev with
  | recv p =>
    obtain ⟨i1, -, i3⟩ := insert_spec ts p s.l h.sorted
    refine ⟨_, rfl, i1, ?_⟩
    intro x hx
    rcases hx with hx | hx
    · rcases (i3 x).1 hx with hx | ⟨rfl, -⟩
      · exact List.mem_append_left _ (h.sub x (Or.inl hx))
      · simp
    · exact List.mem_append_left _ (h.sub x (Or.inr hx))
  | clean =>
    obtain ⟨r, rm, e, hap, -, -, -, -, hsr⟩ := C52_daphne_cleanup ts m hm s.l h.sorted
    refine ⟨{ s with l := r, gone := s.gone ++ s.l.take (s.l.length - r.length) },
      by simp only [step, e, Outcome.bind_ok], hsr, ?_⟩
    intro x hx
    rcases hx with hx | hx
    · exact h.sub x (Or.inl (by rw [hap]; simp only at hx; simp [hx]))
    · rcases List.mem_append.1 hx with hx | hx
      · exact h.sub x (Or.inr hx)
      · exact h.sub x (Or.inl (List.mem_of_mem_take hx))

/-- No late arrivals: every payload received is newer than everything discarded before. -/
def InTime (ts : P → Nat) (m : Nat) (s : St P) : List (Ev P) → Prop
  | [] => True
  | ev :: evs =>
    (∀ p, ev = .recv p → ∀ g ∈ s.gone, ts g < ts p) ∧ ∀ s', step ts m s ev = .ok s' → InTime ts m s' evs

structure Inv (ts : P → Nat) (s : St P) : Prop where
  basic : Basic ts s
  older : ∀ g ∈ s.gone, ∀ p ∈ s.l, ts g < ts p
  first : ∀ p, FirstWithTime ts s.hist p ↔ p ∈ s.l ∨ p ∈ s.gone
  covered : ∀ q ∈ s.hist, ∃ x, (x ∈ s.l ∨ x ∈ s.gone) ∧ ts x = ts q

theorem step_inv (ts : P → Nat) (m : Nat) (hm : 0 < m) (s s' : St P) (h : Inv ts s) (ev : Ev P)
    (he : step ts m s ev = .ok s') (hl : ∀ p, ev = .recv p → ∀ g ∈ s.gone, ts g < ts p) : Inv ts s' := by
  obtain ⟨s2, e2, hb⟩ := step_basic ts m hm s h.basic ev
  rw [he] at e2; injection e2 with e2; subst e2
  cases ev with
  | recv a =>
    have hl := hl a rfl
    simp only [step, Outcome.ok.injEq] at he
    subst he
    obtain ⟨-, i2, i3⟩ := insert_spec ts a s.l h.basic.sorted
    have hacc : (SkipList.insert ts a s.l).2 = true ↔ ∀ q ∈ s.hist, ts q ≠ ts a := by
      rw [i2]
      constructor
      · intro hn q hq e
        obtain ⟨x, hx, ex⟩ := h.covered q hq
        rcases hx with hx | hx
        · exact hn x hx (by rw [ex, e])
        · have := hl x hx; omega
      · intro hn b hb'; exact hn b (h.basic.sub b (Or.inl hb'))
    refine ⟨hb, ?_, ?_, ?_⟩
    · intro g hg p hp
      rcases (i3 p).1 hp with hp | ⟨rfl, -⟩
      · exact h.older g hg p hp
      · exact hl g hg
    · intro p
      rw [first_snoc, h.first p]
      show _ ↔ p ∈ (SkipList.insert ts a s.l).1 ∨ _
      rw [i3 p, hacc]
      constructor
      · rintro ((hp | hp) | hp)
        · exact Or.inl (Or.inl hp)
        · exact Or.inr hp
        · exact Or.inl (Or.inr hp)
      · rintro ((hp | hp) | hp)
        · exact Or.inl (Or.inl hp)
        · exact Or.inr hp
        · exact Or.inl (Or.inr hp)
    · intro q hq
      rcases List.mem_append.1 hq with hq | hq
      · obtain ⟨x, hx, e⟩ := h.covered q hq
        refine ⟨x, ?_, e⟩
        rcases hx with hx | hx
        · exact Or.inl ((i3 x).2 (Or.inl hx))
        · exact Or.inr hx
      · simp only [List.mem_singleton] at hq
        subst hq
        by_cases hc : (SkipList.insert ts q s.l).2 = true
        · exact ⟨q, Or.inl ((i3 q).2 (Or.inr ⟨rfl, hc⟩)), rfl⟩
        · have : ¬ ∀ b ∈ s.l, ts b ≠ ts q := fun hn => hc (i2.2 hn)
          simp only [Classical.not_forall, ne_eq, Classical.not_not] at this
          obtain ⟨x, hx, e⟩ := this
          exact ⟨x, Or.inl ((i3 x).2 (Or.inl hx)), e⟩
  | clean =>
    obtain ⟨r, rm, e, hap, -, -, -, -, hsr⟩ := C52_daphne_cleanup ts m hm s.l h.basic.sorted
    simp only [step, e, Outcome.bind_ok, Outcome.ok.injEq] at he
    subst he
    have htk : s.l.take (s.l.length - r.length) = rm := by
      rw [hap, List.length_append, Nat.add_sub_cancel, List.take_left']
      rfl
    have hsplit := h.basic.sorted
    rw [hap] at hsplit
    have hmem : ∀ x, (x ∈ r ∨ x ∈ s.gone ++ s.l.take (s.l.length - r.length)) ↔ (x ∈ s.l ∨ x ∈ s.gone) := by
      intro x
      rw [htk, hap]
      simp only [List.mem_append]
      grind
    refine ⟨hb, ?_, ?_, ?_⟩
    · intro g hg p hp
      rcases List.mem_append.1 hg with hg | hg
      · exact h.older g hg p (by rw [hap]; exact List.mem_append_right _ hp)
      · rw [htk] at hg
        exact (List.pairwise_append.1 hsplit).2.2 g hg p hp
    · intro p; rw [h.first p]; exact (hmem p).symm
    · intro q hq
      obtain ⟨x, hx, e⟩ := h.covered q hq
      exact ⟨x, (hmem x).2 hx, e⟩

theorem run_inv (ts : P → Nat) (m : Nat) (hm : 0 < m) (evs : List (Ev P)) (s s' : St P) (h : Inv ts s)
    (he : run ts m s evs = .ok s') (hl : InTime ts m s evs) : Inv ts s' := by
  induction evs generalizing s with
  | nil => simp only [run, Outcome.ok.injEq] at he; subst he; exact h
  | cons ev evs ih =>
    obtain ⟨s2, e2, -⟩ := step_basic ts m hm s h.basic ev
    simp only [run, e2, Outcome.bind_ok] at he
    exact ih s2 (step_inv ts m hm s s2 h ev e2 hl.1) he (hl.2 s2 e2)

theorem run_basic (ts : P → Nat) (m : Nat) (hm : 0 < m) (evs : List (Ev P)) (s : St P) (h : Basic ts s) :
    ∃ s', run ts m s evs = .ok s' ∧ Basic ts s' := by
  induction evs generalizing s with
  | nil => exact ⟨s, rfl, h⟩
  | cons ev evs ih =>
    obtain ⟨s2, e2, h2⟩ := step_basic ts m hm s h ev
    obtain ⟨s3, e3, h3⟩ := ih s2 h2
    exact ⟨s3, by simp only [run, e2, Outcome.bind_ok, e3], h3⟩

def St.init (P : Type) : St P := ⟨[], [], []⟩

theorem inv_init (ts : P → Nat) : Inv ts (St.init P) :=
  ⟨⟨List.Pairwise.nil, by intro p hp; simp [St.init] at hp⟩, by intro g hg; simp [St.init] at hg,
    by intro p; constructor
       · rintro ⟨pre, post, e, -⟩; simp [St.init] at e
       · intro hp; simp [St.init] at hp,
    by intro q hq; simp [St.init] at hq⟩

/-- **C82 (never crashes)** Any arrivals and cleanups of a list link succeed; the buffer is in time order without
equal times, and holds received payloads only. -/
theorem C82_run_ok (ts : P → Nat) (m : Nat) (hm : 0 < m) (evs : List (Ev P)) :
    ∃ s, run ts m (St.init P) evs = .ok s ∧ StrictSorted ts s.l ∧ ∀ p ∈ s.l, p ∈ s.hist := by
  obtain ⟨s, e, h⟩ := run_basic ts m hm evs (St.init P) (inv_init ts).basic
  exact ⟨s, e, h.sorted, fun p hp => h.sub p (Or.inl hp)⟩

theorem allFrames_nodup (T : PayloadType P) (l : List P) (h : l.Nodup) : (allFrames T l).Nodup := by
  induction l with
  | nil => exact List.nodup_nil
  | cons p l ih =>
    have hn := List.nodup_cons.1 h
    simp only [allFrames, List.flatMap_cons]
    rw [List.nodup_append]
    refine ⟨?_, ih hn.2, ?_⟩
    · exact List.pairwise_map.2 (List.nodup_range.imp (fun {i j} hij e => hij (by injection e)))
    · intro a ha b hb e
      subst e
      simp only [List.mem_map, List.mem_range] at ha
      obtain ⟨i, -, rfl⟩ := ha
      exact hn.1 ((mem_allFrames T l _).1 hb).1

/-- **C82 (complete, partial)** On a photon-detector list link, with payloads arriving in any order and any
cleanups, a fragment sent without error carries, each once, exactly the frames in the window of all payloads
received in the run that begin inside the window and were the first with their time - if no payload arrived that
was older than something already discarded. Missing: late payloads, payloads begun before the window, and
payloads with equal times (counterexamples). -/
theorem C82_found_complete_partial (T : PayloadType P) (m : Nat) (hm : 0 < m) (evs : List (Ev P)) (s : St P)
    (he : run T.ts m (St.init P) evs = .ok s) (hl : InTime T.ts m (St.init P) evs) (hw : WellFormed T s.hist)
    (geo : GeoId) (ft : Nat) (running : Bool) (c : Counters) (dr : Request) (r : Result P) (f : Fragment P)
    (hr : request T geo ft s.l dr.wBegin running c dr = .ok r) (hc : r.code = .found) (hf : r.fragment = some f) :
    f.header.dataNotFound = false ∧ f.frames.Nodup ∧
    ∀ p i, (p, i) ∈ f.frames ↔ FirstWithTime T.ts s.hist p ∧ i < T.nf p ∧ dr.wBegin ≤ T.ts p ∧
      dr.wBegin ≤ T.fts p i ∧ T.fts p i < dr.wEnd := by
  have h := run_inv T.ts m hm evs (St.init P) s (inv_init T.ts) he hl
  have hwl : WellFormed T s.l := fun p hp => hw p (h.basic.sub p (Or.inl hp))
  obtain ⟨hfr, ⟨a, ha, hab⟩, hhd⟩ := found_frames T geo ft s.l h.basic.sorted hwl dr.wBegin running c dr r f hr hc hf
  have hnd : s.l.Nodup := h.basic.sorted.imp (fun {a b} hab e => by subst e; omega)
  refine ⟨?_, ?_, ?_⟩
  · rw [hhd]; rfl
  · rw [hfr]
    exact (allFrames_nodup T _ (hnd.filter _)).filter _
  · intro p i
    rw [hfr, wanted, List.mem_filter, mem_allFrames, List.mem_filter]
    simp only [Bool.and_eq_true, decide_eq_true_eq]
    simp only [frameTs]
    rw [h.first p]
    constructor
    · rintro ⟨⟨⟨h1, h2⟩, h3⟩, h4, h5⟩; exact ⟨Or.inl h1, h3, h2, h4, h5⟩
    · rintro ⟨h1 | h1, h3, h2, h4, h5⟩
      · exact ⟨⟨⟨h1, h2⟩, h3⟩, h4, h5⟩
      · have := h.older p h1 a (List.mem_of_head? ha)
        omega

/-- Payloads out of order, with a cleanup that discards one: the hypotheses of `C82_found_complete_partial`. -/
theorem C82_demo : ∃ s r f,
    run pds.ts 10000 (St.init Nat) [.recv 3000, .recv 1000, .recv 12000, .clean, .recv 5000] = .ok s ∧
    InTime pds.ts 10000 (St.init Nat) [.recv 3000, .recv 1000, .recv 12000, .clean, .recv 5000] ∧
    s.gone = [1000] ∧ s.l = [3000, 5000, 12000] ∧
    request pds ⟨2, 0, 1⟩ 4 s.l 4000 true ⟨0, 0, 0, 0, 0, 0⟩ (dr0 4000 6000) = .ok r ∧ r.code = .found ∧
    r.fragment = some f ∧ f.frames.length = 12 := by
  refine ⟨⟨[3000, 5000, 12000], [3000, 1000, 12000, 5000], [1000]⟩, _, _, rfl, ?_, rfl, rfl, rfl, rfl, rfl, by decide⟩
  refine ⟨fun p _ g hg => by simp [St.init] at hg, ?_⟩
  intro s1 e1; cases e1
  refine ⟨fun p _ g hg => by simp [St.init] at hg, ?_⟩
  intro s2 e2; cases e2
  refine ⟨fun p _ g hg => by simp [St.init] at hg, ?_⟩
  intro s3 e3; cases e3
  refine ⟨fun p hp => (by cases hp), ?_⟩
  intro s4 e4
  have : step pds.ts 10000 ⟨[1000, 3000, 12000], [3000, 1000, 12000], []⟩ .clean =
    .ok ⟨[3000, 12000], [3000, 1000, 12000], [1000]⟩ := rfl
  have e4 := this.symm.trans e4
  cases e4
  refine ⟨?_, fun _ _ => trivial⟩
  intro p hp g hg
  cases hp
  simp at hg
  subst hg
  decide

/-- **C82 is false of the code** for late payloads: one that is older than what was discarded makes the buffer look as
if it reached back; the fragment for a window in between carries the error bit clear and lacks a payload received. -/
theorem C82_late_counterexample : ∃ s r f,
    run pds.ts 10000 (St.init Nat) [.recv 1000, .recv 2000, .recv 3000, .recv 12500, .clean, .recv 500] = .ok s ∧
    s.gone = [1000, 2000] ∧
    request pds ⟨2, 0, 1⟩ 4 s.l 800 true ⟨0, 0, 0, 0, 0, 0⟩ (dr0 800 2500) = .ok r ∧ r.code = .found ∧
    r.fragment = some f ∧ f.header.dataNotFound = false ∧ f.frames = [] ∧
    FirstWithTime pds.ts s.hist 1000 :=
  ⟨_, _, _, rfl, rfl, rfl, rfl, rfl, rfl, by decide, [], _, rfl, by simp⟩

/-- **C82 is false of the code** for PACMAN: of the messages of one second (their times are in seconds) only the
first is stored, whatever arrives. -/
theorem C82_pacman_one_per_second (msgs : List (Nat × Nat)) (second : Nat) :
    ((insertAll (fun q => q.1 * 50000000) [] msgs).filter (fun q => decide (q.1 = second))).length ≤ 1 := by
  have hs : ∀ (as l : List (Nat × Nat)), StrictSorted (fun q => q.1 * 50000000) l →
      StrictSorted (fun q : Nat × Nat => q.1 * 50000000) (insertAll (fun q => q.1 * 50000000) l as) := by
    intro as
    induction as with
    | nil => intro l h; exact h
    | cons a as ih => intro l h; exact ih _ (insert_spec _ a l h).1
  have h := (hs msgs [] List.Pairwise.nil).sublist
    (List.filter_sublist (p := fun q : Nat × Nat => decide (q.1 = second)))
  generalize hfl : (insertAll (fun q => q.1 * 50000000) [] msgs).filter (fun q => decide (q.1 = second)) = fl at h
  match fl, hfl, h with
  | [], _, _ => simp
  | [_], _, _ => simp
  | x :: y :: rest, hfl, h =>
    have hx : x.1 = second := by
      have : x ∈ (insertAll (fun q => q.1 * 50000000) [] msgs).filter (fun q => decide (q.1 = second)) := by
        rw [hfl]; simp
      simpa using (List.mem_filter.1 this).2
    have hy : y.1 = second := by
      have : y ∈ (insertAll (fun q => q.1 * 50000000) [] msgs).filter (fun q => decide (q.1 = second)) := by
        rw [hfl]; simp
      simpa using (List.mem_filter.1 this).2
    have := (List.pairwise_cons.1 h).1 y (by simp)
    simp only [hx, hy] at this
    omega

example : insertAll (fun q : Nat × Nat => q.1 * 50000000) [] [(7, 0), (7, 1), (8, 2), (7, 3)] = [(7, 0), (8, 2)] := by
  decide

/-! ### Cleanup with payloads arriving -/

theorem insertAll_spec (ts : P → Nat) : ∀ (as l : List P), StrictSorted ts l →
    StrictSorted ts (insertAll ts l as) ∧ (∀ x ∈ l, x ∈ insertAll ts l as) ∧
    (∀ x ∈ insertAll ts l as, x ∈ l ∨ x ∈ as)
  | [], l, h => ⟨h, fun _ hx => hx, fun _ hx => Or.inl hx⟩
  | a :: as, l, h => by
    obtain ⟨i1, -, i3⟩ := insert_spec ts a l h
    obtain ⟨j1, j2, j3⟩ := insertAll_spec ts as _ i1
    refine ⟨j1, fun x hx => j2 x ((i3 x).2 (Or.inl hx)), ?_⟩
    intro x hx
    rcases j3 x hx with hx | hx
    · rcases (i3 x).1 hx with hx | ⟨rfl, -⟩
      · exact Or.inl hx
      · exact Or.inr (by simp)
    · exact Or.inr (by simp [hx])

/-- **C52 (concurrent)** With payloads of any age arriving between any two steps of the cleanup, it never
dereferences a null pointer, and when it ends: the newest payload at its beginning is still stored, nothing less
than the limit older than it was discarded of what was stored, the payloads are in order, and they reach back
less than the limit. -/
theorem C52_concurrent_arrivals (ts : P → Nat) (m : Nat) (tl : P) (htl : ts tl < 2 ^ 64) (hm : 0 < m) :
    ∀ (fuel : Nat) (arr : List (List P × List P)) (head : Nat) (l : List P), StrictSorted ts l → tl ∈ l →
      head + m ≤ ts tl →
      (∃ r, cleanLoop ts m (ts tl) fuel arr head l = .ok r ∧ StrictSorted ts r ∧ tl ∈ r ∧
        (∀ x ∈ l, ts tl < ts x + m → x ∈ r) ∧ (∀ x ∈ r, ts tl < ts x + m)) ∨
      cleanLoop ts m (ts tl) fuel arr head l = .throws .hang := by
  intro fuel
  induction fuel with
  | zero => intro arr head l _ _ _; exact Or.inr rfl
  | succ fuel ih =>
    intro arr head l hs ht hh
    obtain ⟨a1, a2, -⟩ := insertAll_spec ts (arr.headD ([], [])).1 l hs
    have b1 : StrictSorted ts (removeKey ts head (insertAll ts l (arr.headD ([], [])).1)) :=
      a1.sublist List.filter_sublist
    obtain ⟨c1, c2, -⟩ := insertAll_spec ts (arr.headD ([], [])).2 _ b1
    have hkeep : ∀ x ∈ l, ts tl < ts x + m →
        x ∈ insertAll ts (removeKey ts head (insertAll ts l (arr.headD ([], [])).1)) (arr.headD ([], [])).2 := by
      intro x hx hxm
      apply c2
      rw [removeKey, List.mem_filter]
      exact ⟨a2 x hx, by simp; omega⟩
    have htl3 := hkeep tl ht (by omega)
    simp only [cleanLoop]
    generalize insertAll ts (removeKey ts head (insertAll ts l (arr.headD ([], [])).1)) (arr.headD ([], [])).2 = l3
      at *
    cases l3 with
    | nil => simp at htl3
    | cons b rest =>
      have hb : ts b ≤ ts tl := by
        rcases List.mem_cons.1 htl3 with rfl | h
        · exact Nat.le_refl _
        · exact Nat.le_of_lt ((List.pairwise_cons.1 c1).1 tl h)
      have hu : Search.u64 (ts tl + 18446744073709551616 - ts b) = ts tl - ts b := by
        simp only [Search.u64]; omega
      simp only [hu]
      split
      · next hge =>
        rcases ih arr.tail (ts b) (b :: rest) c1 htl3 (by omega) with ⟨r, e, r1, r2, r3, r4⟩ | e
        · exact Or.inl ⟨r, e, r1, r2, fun x hx hxm => r3 x (hkeep x hx hxm) hxm, r4⟩
        · exact Or.inr e
      · next hlt =>
        refine Or.inl ⟨_, rfl, c1, htl3, hkeep, ?_⟩
        intro x hx
        rcases List.mem_cons.1 hx with rfl | h
        · omega
        · have := (List.pairwise_cons.1 c1).1 x h; omega

/-- An older payload arrives between reading the first element and removing it. -/
example : cleanLoop id 100 500 5 [([150], [])] 200 [200, 450, 500] = .ok [450, 500] := by decide

/-- It ends once payloads older than the limit stop arriving: with no arrivals, at most one round per stored
payload. -/
theorem C52_terminates (ts : P → Nat) (m : Nat) (tl : P) (htl : ts tl < 2 ^ 64) (hm : 0 < m) :
    ∀ (l : List P), StrictSorted ts l → tl ∈ l → ∀ a rest, l = a :: rest → ts a + m ≤ ts tl →
      ∃ r, cleanLoop ts m (ts tl) l.length [] (ts a) l = .ok r := by
  intro l
  induction l with
  | nil => intro _ h; simp at h
  | cons a l ih =>
    intro hs ht a' rest e hh
    injection e with e1 e2; subst e1; subst e2
    have h1 := (List.pairwise_cons.1 hs).1
    have h2 := (List.pairwise_cons.1 hs).2
    have hrem : removeKey ts (ts a) (a :: l) = l := by
      rw [removeKey, List.filter_cons_of_neg (by simp), List.filter_eq_self]
      intro x hx; have := h1 x hx; simp; omega
    have htl' : tl ∈ l := by
      rcases List.mem_cons.1 ht with rfl | h
      · omega
      · exact h
    simp only [List.length_cons, cleanLoop, List.headD_nil, insertAll, hrem]
    cases l with
    | nil => simp at htl'
    | cons b rest =>
      have hb : ts b ≤ ts tl := by
        rcases List.mem_cons.1 htl' with rfl | h
        · exact Nat.le_refl _
        · exact Nat.le_of_lt ((List.pairwise_cons.1 h2).1 tl h)
      have hu : Search.u64 (ts tl + 18446744073709551616 - ts b) = ts tl - ts b := by
        simp only [Search.u64]; omega
      simp only [hu, List.tail_nil]
      split
      · next hge => exact ih h2 htl' b rest rfl (by omega)
      · exact ⟨_, rfl⟩

example : cleanLoop id 100 500 4 [] 200 [200, 300, 450, 500] = .ok [450, 500] := by decide

/-- **C81 (no crash, the rest)** If the search object lies behind the newest payload though the window does not,
which PACMAN's uninitialised search object can (C64), the request is treated as one for data yet to come: it waits
while the run lasts and gives an empty fragment with the error bit afterwards, and is counted so. -/
theorem C81_key_behind (T : PayloadType P) (geo : GeoId) (ft : Nat) (l : List P)
    (hs : StrictSorted T.ts l) (key : Nat) (running : Bool) (c : Counters) (dr : Request) (a z : P)
    (ha : l.head? = some a) (hz : l.getLast? = some z) (h1 : T.ts a ≤ dr.wBegin) (h2 : dr.wEnd ≤ T.ts z)
    (hk : T.ts z < key) :
    request T geo ft l key running c dr = .ok
      (if running then ⟨.notYet, none, { c with delayed := c.delayed + 1 }⟩
       else ⟨.notFound, some ⟨{ createHeader geo ft dr with dataNotFound := true }, []⟩,
         { c with delayed := c.delayed + 1, bad := c.bad + 1 }⟩) := by
  have hl : l ≠ [] := by rintro rfl; simp at ha
  have hocc : SkipList.occupancy l ≠ 0 := by simpa [SkipList.occupancy] using hl
  have hne : (fromLowerBound T.ts l key).isEmpty = true := by
    rw [dropWhile_eq_filter T.ts key l hs, List.isEmpty_iff, List.filter_eq_nil_iff]
    intro x hx
    have : T.ts x ≤ T.ts z := by
      obtain ⟨l', rfl⟩ : ∃ l', l = l' ++ [z] := by
        refine ⟨l.dropLast, ?_⟩
        rw [List.getLast?_eq_some_getLast hl] at hz
        cases hz
        exact (List.dropLast_concat_getLast hl).symm
      rcases List.mem_append.1 hx with hx | hx
      · exact Nat.le_of_lt ((List.pairwise_append.1 hs).2.2 x hx z (by simp))
      · simp at hx; subst hx; exact Nat.le_refl _
    simp; omega
  simp only [request, if_pos hocc, SkipList.front, SkipList.back, ha, hz, if_pos (And.intro h1 h2), hne, if_true]
  cases running <;> rfl

/-- A search object that happens to hold 9000 on a link with payloads up to 2000, after the run. -/
example : (request pds ⟨2, 0, 1⟩ 4 [1000, 2000] 9000 false ⟨0, 0, 0, 0, 0, 0⟩ (dr0 1100 1900)).bind
    (fun r => .ok (r.code, r.counters.delayed, r.counters.bad)) = .ok (.notFound, 1, 1) := by decide

end Verif.ListLink
