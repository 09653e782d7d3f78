import Verif.StitchModel
/- Properties C31 and C60: stitching of raw TPs. -/
namespace Verif.Stitch
open Verif.Search (u64)

/-- The hits of a stream in order, with frame timestamp and channel. -/
def hitsOf (fs : List Frame) : List (Nat × Nat × Hit) :=
  fs.flatMap (fun f => f.hits.map (fun h => (f.ts, f.ch, h)))

theorem foldl_map_hits (f : Frame) (s : St) :
    tpStitch s f = (f.hits.map (fun h => (f.ts, f.ch, h))).foldl (fun s x => oneHit s x.1 x.2.1 x.2.2) s := by
  unfold tpStitch; rw [List.foldl_map]

theorem run_hits (fs : List Frame) (s : St) :
    run s fs = (hitsOf fs).foldl (fun s x => oneHit s x.1 x.2.1 x.2.2) s := by
  induction fs generalizing s with
  | nil => rfl
  | cons f fs ih =>
    show run (tpStitch s f) fs = _
    have e : hitsOf (f :: fs) = f.hits.map (fun h => (f.ts, f.ch, h)) ++ hitsOf fs := by simp [hitsOf]
    rw [ih, e, List.foldl_append, ← foldl_map_hits]

/-- The same stitching for a single channel in isolation. -/
def chanRun (ch : Nat) (open_ : List TP) : List (Nat × Hit) → List TP × List TP
  | [] => (open_, [])
  | (ts, h) :: rest =>
    let r := hitStep open_ ts ch h
    let r' := chanRun ch r.1 rest
    (r'.1, r.2.1 ++ r'.2)

/-- The hits of one channel, in order. -/
def chanHits (ch : Nat) (l : List (Nat × Nat × Hit)) : List (Nat × Hit) :=
  (l.filter (fun x => x.2.1 = ch)).map (fun x => (x.1, x.2.2))

theorem stitch_ch (o : List TP) (ch : Nat) (h : Hit) (t : TP) (ho : ∀ a ∈ o, a.ch = ch) :
    (∀ a ∈ (stitch o h t).1, a.ch = ch) ∧ (∀ a ∈ (stitch o h t).2, a.ch = ch) := by
  unfold stitch
  split
  · rename_i x
    have hx : x.ch = ch := ho x (by simp)
    split <;> simp [merge, hx]
  · exact ⟨ho, by simp⟩

theorem finish_ch (o : List TP) (ch : Nat) (h : Hit) (t : TP) (ho : ∀ a ∈ o, a.ch = ch)
    (ht : t.ch = ch) :
    (∀ a ∈ (finish o h t).1, a.ch = ch) ∧ (∀ a ∈ (finish o h t).2.1, a.ch = ch) := by
  unfold finish
  split
  · split
    · rename_i x
      have hx : x.ch = ch := ho x (by simp)
      simp [hx]
    · exact ⟨ho, by simp⟩
  · refine ⟨?_, by simp⟩
    intro a ha
    rcases List.mem_append.1 ha with h' | h'
    · exact ho a h'
    · simp at h'; rw [h']; exact ht

theorem hitStep_ch (o : List TP) (ts ch : Nat) (h : Hit) (ho : ∀ a ∈ o, a.ch = ch) :
    (∀ a ∈ (hitStep o ts ch h).1, a.ch = ch) ∧ (∀ a ∈ (hitStep o ts ch h).2.1, a.ch = ch) := by
  have h1 := stitch_ch o ch h (mkTP ts ch h) ho
  have h2 := finish_ch (stitch o h (mkTP ts ch h)).1 ch h (mkTP ts ch h) h1.1 rfl
  refine ⟨h2.1, ?_⟩
  intro a ha
  rcases List.mem_append.1 ha with h' | h'
  · exact h1.2 a h'
  · exact h2.2 a h'

theorem chan_independent (l : List (Nat × Nat × Hit)) (s : St) (ch : Nat)
    (hs : ∀ c, ∀ a ∈ s.A c, a.ch = c) :
    let r := l.foldl (fun s x => oneHit s x.1 x.2.1 x.2.2) s
    r.A ch = (chanRun ch (s.A ch) (chanHits ch l)).1 ∧
    r.tps.filter (fun t => t.ch = ch) =
      s.tps.filter (fun t => t.ch = ch) ++ (chanRun ch (s.A ch) (chanHits ch l)).2 := by
  induction l generalizing s with
  | nil => simp [chanHits, chanRun]
  | cons x l ih =>
    obtain ⟨ts, c, h⟩ := x
    have hc := hitStep_ch (s.A c) ts c h (hs c)
    have hs' : ∀ c', ∀ a ∈ (oneHit s ts c h).A c', a.ch = c' := by
      intro c' a ha
      simp only [oneHit] at ha
      split at ha
      · rename_i e; rw [e]; exact hc.1 a ha
      · exact hs c' a ha
    have := ih (oneHit s ts c h) hs'
    simp only [List.foldl_cons]
    by_cases e : c = ch
    · subst e
      have e1 : chanHits c ((ts, c, h) :: l) = (ts, h) :: chanHits c l := by simp [chanHits]
      rw [e1]
      simp only [chanRun]
      have hA : (oneHit s ts c h).A c = (hitStep (s.A c) ts c h).1 := by simp [oneHit]
      rw [hA] at this
      refine ⟨this.1, ?_⟩
      rw [this.2]
      have : (oneHit s ts c h).tps = s.tps ++ (hitStep (s.A c) ts c h).2.1 := rfl
      rw [this, List.filter_append]
      have hall : (hitStep (s.A c) ts c h).2.1.filter (fun t => t.ch = c) = (hitStep (s.A c) ts c h).2.1 := by
        rw [List.filter_eq_self]; intro a ha; simpa using hc.2 a ha
      rw [hall, List.append_assoc]
    · have e1 : chanHits ch ((ts, c, h) :: l) = chanHits ch l := by simp [chanHits, e]
      rw [e1]
      have hA : (oneHit s ts c h).A ch = s.A ch := by simp [oneHit, Ne.symm e]
      rw [hA] at this
      refine ⟨this.1, ?_⟩
      rw [this.2]
      have : (oneHit s ts c h).tps = s.tps ++ (hitStep (s.A c) ts c h).2.1 := rfl
      rw [this, List.filter_append]
      have hnone : (hitStep (s.A c) ts c h).2.1.filter (fun t => t.ch = ch) = [] := by
        rw [List.filter_eq_nil_iff]; intro a ha; simp [hc.2 a ha, e]
      rw [hnone, List.append_nil]

/-- Specification of C31: every hit of the stream is accounted for exactly once, by a completed or an
open TP of its channel. -/
def Accounted (fs : List Frame) (s : St) : Prop :=
  ∀ ch, (((s.tps.filter (fun t => t.ch = ch)) ++ s.A ch).flatMap (·.hits)).Perm
    ((chanHits ch (hitsOf fs)).map (fun x => x.2.id))

/-- **C31 is false of the code (hits are lost)**: a hit that is complete in itself produces no
trigger primitive; only the counter moves. -/
theorem C31_complete_hit_lost_counterexample (ts ch : Nat) (h : Hit) (hc : h.cont = false) :
    (run init [⟨ts, ch, [h]⟩]).tps = [] ∧ (∀ c, (run init [⟨ts, ch, [h]⟩]).A c = []) ∧
    (run init [⟨ts, ch, [h]⟩]).count = 1 ∧ ¬ Accounted [⟨ts, ch, [h]⟩] (run init [⟨ts, ch, [h]⟩]) := by
  have h1 : (run init [⟨ts, ch, [h]⟩]).tps = [] := by
    simp [run, tpStitch, oneHit, hitStep, stitch, finish, init, hc]
  have h2 : ∀ c, (run init [⟨ts, ch, [h]⟩]).A c = [] := by
    intro c; simp [run, tpStitch, oneHit, hitStep, stitch, finish, init, hc]
  refine ⟨h1, h2, by simp [run, tpStitch, oneHit, hitStep, stitch, finish, init, hc], ?_⟩
  intro ha
  have := (ha ch).length_eq
  rw [h1, h2] at this
  simp [chanHits, hitsOf] at this

/-- Three parts of one long hit (each part but the last continues). -/
def part (i : Nat) (c : Bool) : Hit := ⟨i, 0, 64, 10, 100, 500, c⟩

/-- **C31 is false of the code (hits are counted twice)**: of a hit spanning three frames the second
part is merged into the open TP and additionally opens a TP of its own. -/
theorem C31_double_count_counterexample :
    ((run init [⟨1600, 7, [part 1 true]⟩, ⟨3200, 7, [part 2 true]⟩]).A 7).map (·.hits) = [[1, 2], [2]] ∧
    ¬ Accounted [⟨1600, 7, [part 1 true]⟩, ⟨3200, 7, [part 2 true]⟩]
      (run init [⟨1600, 7, [part 1 true]⟩, ⟨3200, 7, [part 2 true]⟩]) := by
  have h1 : ((run init [⟨1600, 7, [part 1 true]⟩, ⟨3200, 7, [part 2 true]⟩]).A 7).map (·.hits) =
      [[1, 2], [2]] := by decide
  refine ⟨h1, ?_⟩
  intro ha
  have := (ha 7).length_eq
  rw [List.flatMap_append, List.length_append, List.flatMap_def (l := St.A _ _), h1] at this
  have h2 : (run init [⟨1600, 7, [part 1 true]⟩, ⟨3200, 7, [part 2 true]⟩]).tps = [] := by decide
  rw [h2] at this
  have h3 : (chanHits 7 (hitsOf [⟨1600, 7, [part 1 true]⟩, ⟨3200, 7, [part 2 true]⟩])).length = 2 := by decide
  simp at this
  omega

/-- **C31: a channel that got two open TPs is dead for good**: whatever frames follow, it completes no
trigger primitive any more and keeps everything it has. -/
theorem C31_dead_channel (fs : List Frame) (s : St) (ch : Nat) (hs : ∀ c, ∀ a ∈ s.A c, a.ch = c)
    (h2 : 2 ≤ (s.A ch).length) :
    (run s fs).tps.filter (fun t => t.ch = ch) = s.tps.filter (fun t => t.ch = ch) ∧
    s.A ch <+: (run s fs).A ch := by
  have key : ∀ (l : List (Nat × Hit)) (o : List TP), 2 ≤ o.length →
      (chanRun ch o l).2 = [] ∧ o <+: (chanRun ch o l).1 := by
    intro l
    induction l with
    | nil => intro o _; exact ⟨rfl, List.prefix_refl _⟩
    | cons x l ih =>
      intro o ho
      obtain ⟨ts, h⟩ := x
      have hst : stitch o h (mkTP ts ch h) = (o, []) := by
        unfold stitch
        split
        · simp at ho
        · rfl
      have hstep : (hitStep o ts ch h).2.1 = [] ∧ o <+: (hitStep o ts ch h).1 := by
        unfold hitStep
        simp only [hst]
        unfold finish
        split
        · split
          · simp at ho
          · exact ⟨rfl, List.prefix_refl _⟩
        · exact ⟨rfl, List.prefix_append _ _⟩
      obtain ⟨i1, i2⟩ := ih (hitStep o ts ch h).1 (by have := hstep.2.length_le; omega)
      simp only [chanRun]
      rw [hstep.1, i1]
      exact ⟨rfl, hstep.2.trans i2⟩
  have := chan_independent (hitsOf fs) s ch hs
  rw [← run_hits] at this
  obtain ⟨k1, k2⟩ := key (chanHits ch (hitsOf fs)) (s.A ch) h2
  rw [this.1, this.2, k1]
  exact ⟨by simp, k2⟩

/-- Channel 7 after two continuing parts holds two open TPs. -/
example : 2 ≤ ((run init [⟨1600, 7, [part 1 true]⟩, ⟨3200, 7, [part 2 true]⟩]).A 7).length := by decide

/-- Two parts of one hit: the first continues, the second starts at its frame's beginning, completes the
hit, and its frame is at most 1600 ticks after the start of the first. -/
def Paired (a b : Nat × Hit) : Prop :=
  a.2.cont = true ∧ b.2.cont = false ∧ b.2.start = 0 ∧
    u64 (u64 (b.1 + 0 * tick) + 18446744073709551616 - u64 (a.1 + a.2.start * tick)) ≤ 1600

/-- The hits of a channel are a sequence of two-part hits. -/
inductive Pairs : List (Nat × Hit) → Prop where
  | nil : Pairs []
  | cons (a b : Nat × Hit) (l : List (Nat × Hit)) (h : Paired a b) (hl : Pairs l) : Pairs (a :: b :: l)

/-- Two-part hits of a list, in order. -/
def pairUp : List (Nat × Hit) → List ((Nat × Hit) × (Nat × Hit))
  | a :: b :: l => (a, b) :: pairUp l
  | _ => []

/-- **C31 (partial)** For every stream of frames in which the hits of a channel are two-part hits
(whatever the other channels do): the channel completes exactly one trigger primitive per two-part
hit, in order, made of both parts, with the sum of their charges, the larger of their peaks
and the start time of the first part; nothing stays open. Missing: single-frame hits (lost) and
hits of three or more parts (counted twice, channel dead). -/
theorem C31_two_part_hits_partial (fs : List Frame) (ch : Nat)
    (hp : Pairs (chanHits ch (hitsOf fs))) :
    (run init fs).A ch = [] ∧
    ((run init fs).tps.filter (fun t => t.ch = ch)).map
        (fun t => (t.hits, t.integral, t.adcPeak, t.start)) =
      (pairUp (chanHits ch (hitsOf fs))).map (fun p =>
        ([p.1.2.id, p.2.2.id], p.1.2.sum + p.2.2.sum, max p.1.2.peakAdc p.2.2.peakAdc,
          u64 (p.1.1 + p.1.2.start * tick))) := by
  have key : ∀ l, Pairs l → (chanRun ch [] l).1 = [] ∧
      (chanRun ch [] l).2.map (fun t => (t.hits, t.integral, t.adcPeak, t.start)) =
        (pairUp l).map (fun p =>
          ([p.1.2.id, p.2.2.id], p.1.2.sum + p.2.2.sum, max p.1.2.peakAdc p.2.2.peakAdc,
            u64 (p.1.1 + p.1.2.start * tick))) := by
    intro l hl
    induction hl with
    | nil => exact ⟨rfl, rfl⟩
    | cons a b l h hl ih =>
      obtain ⟨ta, ha⟩ := a
      obtain ⟨tb, hb⟩ := b
      obtain ⟨h1, h2, h3, h4⟩ := h
      simp only at h1 h2 h3 h4
      have e1 : hitStep [] ta ch ha = ([mkTP ta ch ha], [], 0) := by
        simp [hitStep, stitch, finish, h1]
      have e2 : hitStep [mkTP ta ch ha] tb ch hb =
          ([], [merge (mkTP ta ch ha) (mkTP tb ch hb)], 1) := by
        have hcond : hb.start = 0 ∧ u64 ((mkTP tb ch hb).start + 18446744073709551616 -
            (mkTP ta ch ha).start) ≤ stitchConst := by
          refine ⟨h3, ?_⟩
          simp only [mkTP, h3]; exact h4
        simp only [hitStep, stitch, if_pos hcond, finish, h2, if_true, List.nil_append,
          List.length_nil, Nat.zero_add]
      simp only [chanRun, e1, e2, pairUp, List.map_cons, List.nil_append]
      refine ⟨ih.1, ?_⟩
      rw [List.map_append, ih.2]
      simp only [List.map_cons, List.map_nil, List.cons_append, List.nil_append]
      congr 1
      simp only [merge, mkTP, List.cons_append, List.nil_append]
      refine Prod.ext rfl (Prod.ext rfl (Prod.ext ?_ rfl))
      show (if hb.peakAdc > ha.peakAdc then hb.peakAdc else ha.peakAdc) = max ha.peakAdc hb.peakAdc
      split <;> omega
  have := chan_independent (hitsOf fs) init ch (by simp [init])
  rw [← run_hits] at this
  obtain ⟨k1, k2⟩ := key _ hp
  simp only [init, List.filter_nil, List.nil_append] at this
  rw [show (init : St) = ⟨fun _ => [], [], 0⟩ from rfl, this.1, this.2]
  exact ⟨k1, k2⟩

/-- Non-vacuity: a two-part hit on channel 7 with an unrelated hit on channel 8 in between. -/
example : Pairs (chanHits 7 (hitsOf [⟨1600, 7, [⟨1, 50, 63, 55, 90, 400, true⟩]⟩,
    ⟨1600, 8, [part 9 false]⟩, ⟨3200, 7, [⟨2, 0, 5, 2, 120, 300, false⟩]⟩])) := by
  refine .cons _ _ _ ⟨rfl, rfl, rfl, ?_⟩ .nil
  decide

/-- The hits of a channel are two-part hits and first parts whose second part never came (the next
part does not continue them); the groups in order. -/
inductive Groups : List (Nat × Hit) → List (List (Nat × Hit)) → Prop where
  | nil : Groups [] []
  | pair (a b : Nat × Hit) (l : List (Nat × Hit)) (g : List (List (Nat × Hit))) (h : Paired a b)
      (hl : Groups l g) : Groups (a :: b :: l) ([a, b] :: g)
  | alone (a b : Nat × Hit) (l : List (Nat × Hit)) (g : List (List (Nat × Hit)))
      (ha : a.2.cont = true) (hb : b.2.cont = true)
      (hn : b.2.start ≠ 0 ∨
        1600 < u64 (u64 (b.1 + b.2.start * tick) + 18446744073709551616 - u64 (a.1 + a.2.start * tick)))
      (hl : Groups (b :: l) g) : Groups (a :: b :: l) ([a] :: g)

/-- **C31 (partial)** For every stream in which the hits of a channel are two-part hits and unfinished
first parts, exactly one trigger primitive per group is completed, in order and made of exactly
the parts of the group with the sum of their charges. -/
theorem C31_unfinished_parts_partial (fs : List Frame) (ch : Nat) (g : List (List (Nat × Hit)))
    (hp : Groups (chanHits ch (hitsOf fs)) g) :
    (run init fs).A ch = [] ∧
    ((run init fs).tps.filter (fun t => t.ch = ch)).map (fun t => (t.hits, t.integral)) =
      g.map (fun p => (p.map (·.2.id), (p.map (·.2.sum)).sum)) := by
  have key : ∀ l g, Groups l g → (chanRun ch [] l).1 = [] ∧
      (chanRun ch [] l).2.map (fun t => (t.hits, t.integral)) =
        g.map (fun p => (p.map (·.2.id), (p.map (·.2.sum)).sum)) := by
    intro l g hl
    induction hl with
    | nil => exact ⟨rfl, rfl⟩
    | pair a b l g h hl ih =>
      obtain ⟨ta, ha⟩ := a
      obtain ⟨tb, hb⟩ := b
      obtain ⟨h1, h2, h3, h4⟩ := h
      simp only at h1 h2 h3 h4
      have e1 : hitStep [] ta ch ha = ([mkTP ta ch ha], [], 0) := by
        simp [hitStep, stitch, finish, h1]
      have e2 : hitStep [mkTP ta ch ha] tb ch hb =
          ([], [merge (mkTP ta ch ha) (mkTP tb ch hb)], 1) := by
        have hcond : hb.start = 0 ∧ u64 ((mkTP tb ch hb).start + 18446744073709551616 -
            (mkTP ta ch ha).start) ≤ stitchConst := by
          refine ⟨h3, ?_⟩
          simp only [mkTP, h3]; exact h4
        simp only [hitStep, stitch, if_pos hcond, finish, h2, if_true, List.nil_append,
          List.length_nil, Nat.zero_add]
      simp only [chanRun, e1, e2, List.map_cons, List.nil_append]
      refine ⟨ih.1, ?_⟩
      rw [List.map_append, ih.2]
      simp [merge, mkTP]
    | alone a b l g h1 h2 hn hl ih =>
      obtain ⟨ta, ha⟩ := a
      obtain ⟨tb, hb⟩ := b
      simp only at h1 h2 hn
      have e1 : hitStep [] ta ch ha = ([mkTP ta ch ha], [], 0) := by
        simp [hitStep, stitch, finish, h1]
      have hcond : ¬ (hb.start = 0 ∧ u64 ((mkTP tb ch hb).start + 18446744073709551616 -
            (mkTP ta ch ha).start) ≤ stitchConst) := by
        rintro ⟨c1, c2⟩
        rcases hn with hn | hn
        · exact hn c1
        · exact absurd c2 (Nat.not_le.2 hn)
      have e2 : hitStep [mkTP ta ch ha] tb ch hb = ([mkTP tb ch hb], [mkTP ta ch ha], 1) := by
        simp only [hitStep, stitch, if_neg hcond, finish, h2]
        simp
      have e3 : hitStep [] tb ch hb = ([mkTP tb ch hb], [], 0) := by
        simp [hitStep, stitch, finish, h2]
      simp only [chanRun, e3, List.nil_append] at ih
      simp only [chanRun, e1, e2, List.nil_append]
      refine ⟨ih.1, ?_⟩
      rw [List.map_append, ih.2]
      simp [mkTP]
  have := chan_independent (hitsOf fs) init ch (by simp [init])
  rw [← run_hits] at this
  obtain ⟨k1, k2⟩ := key _ _ hp
  simp only [init, List.filter_nil, List.nil_append] at this
  rw [show (init : St) = ⟨fun _ => [], [], 0⟩ from rfl, this.1, this.2]
  exact ⟨k1, k2⟩

/-- Non-vacuity: an unfinished part, then a two-part hit. -/
example : Groups (chanHits 7 (hitsOf [⟨1600, 7, [⟨1, 50, 63, 55, 90, 400, true⟩]⟩,
    ⟨9600, 7, [⟨2, 40, 63, 55, 90, 400, true⟩]⟩, ⟨11200, 7, [⟨3, 0, 5, 2, 120, 300, false⟩]⟩]))
    [[(1600, ⟨1, 50, 63, 55, 90, 400, true⟩)],
     [(9600, ⟨2, 40, 63, 55, 90, 400, true⟩), (11200, ⟨3, 0, 5, 2, 120, 300, false⟩)]] := by
  refine .alone _ _ _ _ rfl rfl (Or.inl (by decide)) ?_
  refine .pair _ _ _ _ ⟨rfl, rfl, rfl, ?_⟩ .nil
  decide

/-- Specification of C60: a completed TP's time over threshold is the length of its hit in ticks of the
clock: for a two-part hit from `a.start` in the first frame to `b.endT` in the second one. -/
def goodTot (ts1 ts2 : Nat) (a b : Hit) : Nat := ts2 + b.endT * tick - (ts1 + a.start * tick)

/-- **C60 is false of the code**: the time over threshold is computed as the end time within the frame
minus the absolute start time (l.75), so it is a huge number for any realistic timestamp: here
a two-part hit of 475 ticks gets 18446744073709547266. -/
theorem C60_time_over_threshold_counterexample :
    ((run init [⟨1600, 7, [⟨1, 50, 63, 55, 90, 400, true⟩]⟩, ⟨3200, 7, [⟨2, 0, 5, 2, 120, 300, false⟩]⟩]).tps.map
      (·.tot)) = [18446744073709547266] ∧
    goodTot 1600 3200 ⟨1, 50, 63, 55, 90, 400, true⟩ ⟨2, 0, 5, 2, 120, 300, false⟩ = 475 := by
  constructor <;> decide

end Verif.Stitch
