import Verif.ConcListModel
import Verif.ListLinkProps
/- Property C109: requests on sorted-list links while payloads arrive. -/
namespace Verif.ConcList
open Verif.DataReq Verif.SkipList Verif.ListLink
variable {P : Type}

/-! ### Histories and moments -/

/-- One thread inserts, each payload linked and then counted. -/
structure Hist.Ok (h : Hist P) : Prop where
  monoL : ∀ s t, s ≤ t → h.linked s ≤ h.linked t
  monoC : ∀ s t, s ≤ t → h.counted s ≤ h.counted t
  le : ∀ t, h.counted t ≤ h.linked t
  lag : ∀ t, h.linked t ≤ h.counted t + 1
  all : ∀ t, h.linked t ≤ h.arr.length

/-- The operations of a request happen one after the other. -/
structure Times.Ok (tm : Times) : Prop where
  a : tm.size ≤ tm.front
  b : tm.front ≤ tm.back
  c : tm.back ≤ tm.lower
  d : ∀ i, tm.lower ≤ tm.inc i
  e : ∀ i j, i ≤ j → tm.inc i ≤ tm.inc j

theorem insertAll_append (ts : P → Nat) : ∀ (as bs l : List P),
    insertAll ts l (as ++ bs) = insertAll ts (insertAll ts l as) bs
  | [], _, _ => rfl
  | a :: as, bs, l => by
    simp only [List.cons_append, insertAll]
    exact insertAll_append ts as bs _

/-- Newer payloads go to the end. -/
theorem insert_last (ts : P → Nat) (a : P) : ∀ l : List P, (∀ b ∈ l, ts b < ts a) → (SkipList.insert ts a l).1 = l ++ [a]
  | [], _ => rfl
  | b :: l, h => by
    have hb := h b (by simp)
    have h1 : ¬ ts a < ts b := by omega
    have h2 : ¬ ts a = ts b := by omega
    have := insert_last ts a l (fun x hx => h x (by simp [hx]))
    simp [SkipList.insert, h1, h2, this]

theorem insertAll_sorted (ts : P → Nat) : ∀ (as l : List P), StrictSorted ts (l ++ as) → insertAll ts l as = l ++ as
  | [], l, _ => by simp [insertAll]
  | a :: as, l, h => by
    have h1 : ∀ b ∈ l, ts b < ts a := fun b hb => (List.pairwise_append.1 h).2.2 b hb a (by simp)
    unfold insertAll
    rw [SkipList.write, insert_last ts a l h1, insertAll_sorted ts as (l ++ [a]) (by simpa using h)]
    simp

theorem after_sorted {h : Hist P} {ts : P → Nat} (hs : StrictSorted ts h.base) (k : Nat) :
    StrictSorted ts (h.after ts k) := (insertAll_spec ts _ _ hs).1

theorem after_mono {h : Hist P} {ts : P → Nat} (hs : StrictSorted ts h.base) {k m : Nat} (hkm : k ≤ m) :
    ∀ x ∈ h.after ts k, x ∈ h.after ts m := by
  intro x hx
  have e : h.arr.take m = h.arr.take k ++ (h.arr.drop k).take (m - k) := by
    rw [List.take_drop, show k + (m - k) = m by omega]
    have := List.take_append_drop k (h.arr.take m)
    rw [List.take_take, Nat.min_eq_left hkm] at this
    exact this.symm
  unfold Hist.after
  rw [e, insertAll_append]
  exact (insertAll_spec ts _ _ (insertAll_spec ts _ _ hs).1).2.1 x hx

theorem after_nonempty {h : Hist P} (ho : h.Ok) {ts : P → Nat} {t s : Nat} (hst : s ≤ t) (hz : h.size s ≠ 0) :
    h.at ts t ≠ [] := by
  have grow : ∀ (as l : List P), l ≠ [] → insertAll ts l as ≠ [] := by
    intro as
    induction as with
    | nil => intro l hl; exact hl
    | cons a as ih =>
      intro l hl
      refine ih _ ?_
      intro hn
      have := insert_length ts a l
      rw [SkipList.write] at hn
      rw [hn] at this
      cases l with
      | nil => exact hl rfl
      | cons b l => simp only [List.length_nil, List.length_cons] at this; split at this <;> omega
  unfold Hist.at Hist.after
  cases hb : h.base with
  | cons b l => exact grow _ _ (by simp)
  | nil =>
    have hc : h.counted s ≠ 0 := by simpa [Hist.size, hb] using hz
    have h1 := ho.monoC s t hst
    have h2 := ho.le t
    have h3 := ho.all t
    cases ha : h.arr with
    | nil => rw [ha] at h3; simp at h3; omega
    | cons a as =>
      obtain ⟨k, hk⟩ : ∃ k, h.linked t = k + 1 := ⟨h.linked t - 1, by omega⟩
      rw [hk, List.take_succ_cons]
      unfold insertAll
      exact grow _ _ (by simp [SkipList.write, SkipList.insert])

/-! ### The loop -/

theorem next_spec {ts : P → Nat} {l : List P} {p q : P} (h : next ts l p = some q) : q ∈ l ∧ ts p < ts q := by
  have h1 := List.mem_of_find?_eq_some h
  have h2 := List.find?_some h
  exact ⟨h1, by simpa using h2⟩

/-- The loop ends: times grow and stay below the end of the window. -/
theorem walk_ok (T : PayloadType P) (b e : Nat) (view : Nat → List P) :
    ∀ (fuel i : Nat) (p : P), e - T.ts p < fuel → ∃ fr, walk T b e view fuel i p = .ok fr
  | 0, _, _, h => by omega
  | fuel + 1, i, p, h => by
    unfold walk
    by_cases hp : T.ts p < e
    · rw [if_pos hp]
      cases hn : next T.ts (view i) p with
      | none => exact ⟨_, rfl⟩
      | some q =>
        have := (next_spec hn).2
        obtain ⟨fr, hfr⟩ := walk_ok T b e view fuel (i + 1) q (by omega)
        exact ⟨payloadPieces T b e p ++ fr, by simp only [hfr, Outcome.bind_ok]⟩
    · rw [if_neg hp]; exact ⟨_, rfl⟩

/-- **C109 (no crash)** Whatever arrives while it runs, a request is answered: no null pointer is dereferenced and the
loop ends. -/
theorem C109_no_crash (T : PayloadType P) (geo : GeoId) (ft : Nat) (h : Hist P) (ho : h.Ok) (tm : Times) (ht : tm.Ok)
    (key : Nat) (running : Bool) (c : Counters) (dr : Request) :
    ∃ r, request T geo ft h tm key running c dr = .ok r := by
  unfold request
  dsimp only
  split
  · next hz =>
    obtain ⟨x, -, hx, -⟩ := ends (after_nonempty ho (ts := T.ts) ht.a hz)
    obtain ⟨-, y, -, hy⟩ := ends (after_nonempty ho (ts := T.ts) (Nat.le_trans ht.a ht.b) hz)
    rw [SkipList.front, hx, SkipList.back, hy]
    dsimp only
    split
    · split
      · split <;> exact ⟨_, rfl⟩
      · next p _ =>
        obtain ⟨fr, hfr⟩ := walk_ok T dr.wBegin dr.wEnd (fun i => h.at T.ts (tm.inc i)) (dr.wEnd + 1) 0 p (by omega)
        rw [hfr, Outcome.bind_ok]
        exact ⟨_, rfl⟩
    · split
      · exact ⟨_, rfl⟩
      · split
        · split <;> exact ⟨_, rfl⟩
        · exact ⟨_, rfl⟩
  · exact ⟨_, rfl⟩

/-! ### Arrivals in the order of time -/

/-- Payloads arrive in the order of their times. -/
def InOrder (T : PayloadType P) (h : Hist P) : Prop := StrictSorted T.ts (h.base ++ h.arr)

theorem InOrder.after {T : PayloadType P} {h : Hist P} (hi : InOrder T h) (k : Nat) :
    h.after T.ts k = h.base ++ h.arr.take k := by
  apply insertAll_sorted
  exact List.Pairwise.sublist (List.Sublist.append_left (List.take_sublist _ _) _) hi

/-- Walking through a list that only grows behind the window is walking through what was there at the beginning. -/
theorem walk_eq (T : PayloadType P) (b e : Nat) (view : Nat → List P) (l : List P)
    (hv : ∀ i, ∃ m, view i = l ++ m ∧ StrictSorted T.ts (l ++ m) ∧ ∀ x ∈ m, e ≤ T.ts x) :
    ∀ (fuel i : Nat) (p : P) (pre suf : List P), l = pre ++ p :: suf → e - T.ts p < fuel →
      walk T b e view fuel i p = .ok (extractSkip T b e (p :: suf))
  | 0, _, _, _, _, _, h => by omega
  | fuel + 1, i, p, pre, suf, hl, h => by
    unfold walk extractSkip
    by_cases hp : T.ts p < e
    · rw [if_pos hp, if_pos hp]
      obtain ⟨m, hm, hs, hx⟩ := hv i
      have hpre : ∀ x ∈ pre, ¬ T.ts p < T.ts x := by
        intro x hxp
        rw [hl, List.append_assoc] at hs
        have := (List.pairwise_append.1 hs).2.2 x hxp p (by simp)
        omega
      have hsuf : ∀ x ∈ suf ++ m, T.ts p < T.ts x := by
        rw [hl, List.append_assoc] at hs
        have := (List.pairwise_append.1 hs).2.1
        exact (List.pairwise_cons.1 this).1
      have hnext : next T.ts (view i) p = (suf ++ m).head? := by
        unfold next
        rw [hm, hl, List.append_assoc, List.find?_append,
          List.find?_eq_none.2 (by intro x hx; simpa using Nat.le_of_not_lt (hpre x hx))]
        simp only [Option.none_or, List.cons_append]
        rw [List.find?_cons_of_neg (by simp)]
        cases hsm : suf ++ m with
        | nil => rfl
        | cons y ys =>
          have := hsuf y (by rw [hsm]; simp)
          rw [List.find?_cons_of_pos (by simpa using this)]
          rfl
      rw [hnext]
      cases suf with
      | cons q suf' =>
        simp only [List.cons_append, List.head?_cons]
        have hq := hsuf q (by simp)
        rw [walk_eq T b e view l hv fuel (i + 1) q (pre ++ [p]) suf' (by simp [hl]) (by omega)]
        simp only [Outcome.bind_ok]
      | nil =>
        cases m with
        | nil => simp [extractSkip]
        | cons q m' =>
          simp only [List.nil_append, List.head?_cons]
          have hq := hsuf q (by simp)
          have hqe := hx q (by simp)
          obtain ⟨f', rfl⟩ : ∃ f', fuel = f' + 1 := ⟨fuel - 1, by omega⟩
          have : ¬ T.ts q < e := by omega
          simp [walk, this, extractSkip]
    · rw [if_neg hp, if_neg hp]

theorem lowerBound_split (ts : P → Nat) (k : Nat) : ∀ l : List P,
    (lowerBound ts l k = none ∧ fromLowerBound ts l k = []) ∨
    ∃ pre p suf, l = pre ++ p :: suf ∧ lowerBound ts l k = some p ∧ fromLowerBound ts l k = p :: suf
  | [] => Or.inl ⟨rfl, rfl⟩
  | a :: l => by
    by_cases ha : ts a < k
    · rcases lowerBound_split ts k l with ⟨h1, h2⟩ | ⟨pre, p, suf, h1, h2, h3⟩
      · left
        unfold lowerBound at h1 ⊢
        unfold fromLowerBound at h2 ⊢
        rw [List.find?_cons_of_neg (by simpa using ha), List.dropWhile_cons_of_pos (by simpa using ha)]
        exact ⟨h1, h2⟩
      · right
        unfold lowerBound at h2 ⊢
        unfold fromLowerBound at h3 ⊢
        rw [List.find?_cons_of_neg (by simpa using ha), List.dropWhile_cons_of_pos (by simpa using ha)]
        exact ⟨a :: pre, p, suf, by simp [h1], h2, h3⟩
    · right
      unfold lowerBound fromLowerBound
      rw [List.find?_cons_of_pos (by simpa using ha), List.dropWhile_cons_of_neg (by simpa using ha)]
      exact ⟨[], a, l, rfl, rfl, rfl⟩

theorem head_prefix {l m : List P} (h : l ≠ []) : (l ++ m).head? = l.head? := by
  cases l with
  | nil => exact absurd rfl h
  | cons a l => rfl

/-- **C109 (one moment, partial)** If payloads arrive in the order of their times, a request answers exactly as if
nothing arrived while it ran, for the contents after some number of arrivals: at least those that were complete when it
began, at most those begun when it searched. -/
theorem C109_one_moment_partial (T : PayloadType P) (geo : GeoId) (ft : Nat) (h : Hist P) (ho : h.Ok) (hi : InOrder T h)
    (tm : Times) (ht : tm.Ok) (key : Nat) (running : Bool) (c : Counters) (dr : Request) :
    ∃ k, h.counted tm.size ≤ k ∧ k ≤ h.linked tm.lower ∧
      request T geo ft h tm key running c dr = ListLink.request T geo ft (h.base ++ h.arr.take k) key running c dr := by
  have hat : ∀ t, h.at T.ts t = h.base ++ h.arr.take (h.linked t) := fun t => hi.after _
  by_cases hz : h.size tm.size = 0
  · refine ⟨0, ?_, Nat.zero_le _, ?_⟩
    · simp only [Hist.size] at hz; omega
    · have hb : h.base = [] := by
        apply List.eq_nil_of_length_eq_zero
        simp only [Hist.size] at hz; omega
      simp [request, ListLink.request, hz, hb, SkipList.occupancy]
  · have hne1 := after_nonempty ho (ts := T.ts) ht.a hz
    have hne2 := after_nonempty ho (ts := T.ts) (Nat.le_trans ht.a ht.b) hz
    have hne3 := after_nonempty ho (ts := T.ts) (Nat.le_trans (Nat.le_trans ht.a ht.b) ht.c) hz
    obtain ⟨first, -, hfirst, -⟩ := ends hne1
    obtain ⟨-, last, -, hlast⟩ := ends hne2
    have hpre : ∀ {s t : Nat}, s ≤ t → ∃ m, h.at T.ts t = h.at T.ts s ++ m ∧
        StrictSorted T.ts (h.at T.ts s ++ m) := by
      intro s t hst
      refine ⟨(h.arr.drop (h.linked s)).take (h.linked t - h.linked s), ?_⟩
      have hl := ho.monoL s t hst
      have e : h.arr.take (h.linked t)
          = h.arr.take (h.linked s) ++ (h.arr.drop (h.linked s)).take (h.linked t - h.linked s) := by
        rw [List.take_drop, show h.linked s + (h.linked t - h.linked s) = h.linked t by omega]
        have := List.take_append_drop (h.linked s) (h.arr.take (h.linked t))
        rw [List.take_take, Nat.min_eq_left hl] at this
        exact this.symm
      have e' : h.at T.ts t
          = h.at T.ts s ++ (h.arr.drop (h.linked s)).take (h.linked t - h.linked s) := by
        rw [hat, hat, e, List.append_assoc]
      refine ⟨e', ?_⟩
      rw [← e', hat]
      exact List.Pairwise.sublist (List.Sublist.append_left (List.take_sublist _ _) _) hi
    have hfront : ∀ t, tm.front ≤ t → (h.at T.ts t).head? = some first := by
      intro t ht'
      obtain ⟨m, hm, -⟩ := hpre ht'
      rw [hm, head_prefix hne1, hfirst]
    have hcl : h.counted tm.size ≤ h.linked tm.back :=
      Nat.le_trans (ho.monoC _ _ (Nat.le_trans ht.a ht.b)) (ho.le _)
    by_cases hin : T.ts first ≤ dr.wBegin ∧ dr.wEnd ≤ T.ts last
    · refine ⟨h.linked tm.lower, Nat.le_trans hcl (ho.monoL _ _ ht.c), Nat.le_refl _, ?_⟩
      rw [← hat]
      obtain ⟨-, last', -, hlast'⟩ := ends hne3
      obtain ⟨m, hm, hsm⟩ := hpre ht.c
      have hll : T.ts last ≤ T.ts last' := by
        have hmem : last ∈ h.at T.ts tm.back := List.mem_of_getLast? hlast
        rw [hm] at hlast'
        cases hmm : m with
        | nil =>
          rw [hmm, List.append_nil, hlast] at hlast'
          rw [Option.some.inj hlast']
          exact Nat.le_refl _
        | cons y ys =>
          have hl' : last' ∈ m := by
            rw [List.getLast?_append] at hlast'
            obtain ⟨z, hz'⟩ : ∃ z, m.getLast? = some z := ⟨_, List.getLast?_eq_some_getLast (by rw [hmm]; simp)⟩
            rw [hz', Option.some_or] at hlast'
            rw [← Option.some.inj hlast']
            exact List.mem_of_getLast? hz'
          exact Nat.le_of_lt ((List.pairwise_append.1 hsm).2.2 last hmem last' hl')
      have hin' : T.ts first ≤ dr.wBegin ∧ dr.wEnd ≤ T.ts last' := ⟨hin.1, Nat.le_trans hin.2 hll⟩
      have hocc : SkipList.occupancy (h.at T.ts tm.lower) ≠ 0 := by
        unfold SkipList.occupancy
        exact fun h0 => hne3 (List.eq_nil_of_length_eq_zero h0)
      unfold request ListLink.request
      dsimp only
      rw [if_pos hz, if_pos hocc]
      rw [SkipList.front, hfirst, SkipList.back, hlast, SkipList.front,
        hfront _ (Nat.le_trans ht.b ht.c), SkipList.back, hlast']
      dsimp only
      rw [if_pos hin, if_pos hin']
      rcases lowerBound_split T.ts key (h.at T.ts tm.lower) with ⟨h1, h2⟩ | ⟨pre, p, suf, h1, h2, h3⟩
      · rw [h1, h2]; rfl
      · rw [h2, h3]
        dsimp only
        rw [walk_eq T dr.wBegin dr.wEnd _ (h.at T.ts tm.lower) ?_ _ _ p pre suf h1 (by omega)]
        · rfl
        · intro i
          obtain ⟨m', hm', hs'⟩ := hpre (ht.d i)
          refine ⟨m', hm', hs', ?_⟩
          intro x hx
          have := (List.pairwise_append.1 hs').2.2 last' (List.mem_of_getLast? hlast') x hx
          have h4 := hin'.2
          omega
    · refine ⟨h.linked tm.back, hcl, ho.monoL _ _ ht.c, ?_⟩
      rw [← hat]
      have hocc : SkipList.occupancy (h.at T.ts tm.back) ≠ 0 := by
        unfold SkipList.occupancy
        exact fun h0 => hne2 (List.eq_nil_of_length_eq_zero h0)
      unfold request ListLink.request
      dsimp only
      rw [if_pos hz, if_pos hocc]
      rw [SkipList.front, hfirst, SkipList.back, hlast, SkipList.front, hfront _ ht.b]
      dsimp only
      rw [if_neg hin, if_neg hin]

/-- **C109 (exact, partial)** If payloads arrive in order and none begun before the search object's time reaches into the
window, a found request carries exactly the frames of its window among everything that is stored when it begins or
arrives at any time afterwards. -/
theorem C109_exact_partial (T : PayloadType P) (geo : GeoId) (ft : Nat) (h : Hist P) (ho : h.Ok) (hi : InOrder T h)
    (hw : WellFormed T (h.base ++ h.arr)) (tm : Times) (ht : tm.Ok) (key : Nat) (running : Bool) (c : Counters)
    (dr : Request) (r : Result P) (f : Fragment P) (hr : request T geo ft h tm key running c dr = .ok r)
    (hc : r.code = .found) (hf : r.fragment = some f)
    (hst : ∀ p ∈ h.base ++ h.arr, T.ts p < key → T.ts p + (T.nf p - 1) * T.tick < dr.wBegin) :
    f.frames = wanted T (h.base ++ h.arr) dr.wBegin dr.wEnd := by
  obtain ⟨k, -, -, hk⟩ := C109_one_moment_partial T geo ft h ho hi tm ht key running c dr
  rw [hk] at hr
  have hsub : (h.base ++ h.arr.take k).Sublist (h.base ++ h.arr) :=
    List.Sublist.append_left (List.take_sublist _ _) _
  have hs : StrictSorted T.ts (h.base ++ h.arr.take k) := List.Pairwise.sublist hsub hi
  rw [C81_exact_partial T geo ft _ hs (fun p hp => hw p (hsub.subset hp)) key running c dr r f hr hc hf
    (fun p hp => hst p (hsub.subset hp))]
  have hsplit : h.base ++ h.arr = (h.base ++ h.arr.take k) ++ h.arr.drop k := by
    rw [List.append_assoc, List.take_append_drop]
  obtain ⟨z, hz, hze⟩ : ∃ z ∈ h.base ++ h.arr.take k, dr.wEnd ≤ T.ts z := by
    unfold ListLink.request at hr
    dsimp only at hr
    split at hr
    · split at hr
      · next first last hfst hlst =>
        split at hr
        · next hin => exact ⟨last, List.mem_of_getLast? hlst, hin.2⟩
        · exfalso
          split at hr
          · injection hr with hr; rw [← hr] at hc; cases hc
          · split at hr
            · split at hr <;> (injection hr with hr; rw [← hr] at hc; cases hc)
            · injection hr with hr; rw [← hr] at hc; cases hc
      · cases hr
    · injection hr with hr; rw [← hr] at hc; cases hc
  rw [hsplit]
  simp only [wanted, allFrames, List.flatMap_append, List.filter_append]
  have : ((h.arr.drop k).flatMap (fun p => (List.range (T.nf p)).map (fun i => (p, i)))).filter
      (fun f => decide (dr.wBegin ≤ frameTs T f) && decide (frameTs T f < dr.wEnd)) = [] := by
    rw [List.filter_eq_nil_iff]
    intro f hf
    obtain ⟨p, hp, hf⟩ := List.mem_flatMap.1 hf
    obtain ⟨i, hi', rfl⟩ := List.mem_map.1 hf
    have hpz : T.ts z < T.ts p := by
      have hi2 : StrictSorted T.ts ((h.base ++ h.arr.take k) ++ h.arr.drop k) := by rw [← hsplit]; exact hi
      exact (List.pairwise_append.1 hi2).2.2 z hz p hp
    have hwp := hw p (by rw [hsplit]; exact List.mem_append_right _ hp)
    simp only [frameTs, hwp.2 i (List.mem_range.1 hi'), Bool.and_eq_true, decide_eq_true_eq]
    omega
  rw [this]
  simp

/-! ### Arrivals in any order -/

theorem walk_bounds (T : PayloadType P) (b e : Nat) (view : Nat → List P) (l : List P)
    (hs : ∀ i, StrictSorted T.ts (view i)) (hl : ∀ i, ∀ x ∈ l, x ∈ view i) :
    ∀ (fuel i : Nat) (p : P) (fr : List (P × Nat)), walk T b e view fuel i p = .ok fr →
      (∀ q ∈ l, T.ts p < T.ts q → T.ts q < e → ∀ x ∈ payloadPieces T b e q, x ∈ fr) ∧
      (T.ts p < e → ∀ x ∈ payloadPieces T b e p, x ∈ fr) ∧
      (∀ x ∈ fr, T.ts p < e ∧ (x ∈ payloadPieces T b e p ∨
        ∃ j q, q ∈ view j ∧ T.ts p < T.ts q ∧ T.ts q < e ∧ x ∈ payloadPieces T b e q))
  | 0, _, _, _, h => by cases h
  | fuel + 1, i, p, fr, h => by
    unfold walk at h
    by_cases hp : T.ts p < e
    · rw [if_pos hp] at h
      cases hn : next T.ts (view i) p with
      | none =>
        simp only [hn] at h
        injection h with h
        subst h
        refine ⟨?_, fun _ x hx => hx, fun x hx => ⟨hp, Or.inl hx⟩⟩
        intro q hq hpq
        have := List.find?_eq_none.1 hn q (hl i q hq)
        simp [hpq] at this
      | some q =>
        simp only [hn] at h
        cases hwk : walk T b e view fuel (i + 1) q with
        | ub w => simp [hwk] at h
        | throws w => simp [hwk] at h
        | ok rest =>
          simp only [hwk, Outcome.bind_ok] at h
          injection h with h
          subst h
          obtain ⟨i1, i2, i3⟩ := walk_bounds T b e view l hs hl fuel (i + 1) q rest hwk
          obtain ⟨hqv, hpq⟩ := next_spec hn
          refine ⟨?_, fun _ x hx => List.mem_append_left _ hx, ?_⟩
          · intro z hz hpz hze x hx
            apply List.mem_append_right
            by_cases hqz : T.ts q < T.ts z
            · exact i1 z hz hqz hze x hx
            · have : z = q := by
                obtain ⟨-, as, bs, hab, has⟩ := List.find?_eq_some_iff_append.1 hn
                have hzv := hl i z hz
                rw [hab] at hzv
                rcases List.mem_append.1 hzv with h1 | h1
                · exact absurd hpz (by simpa using has z h1)
                · rcases List.mem_cons.1 h1 with h1 | h1
                  · exact h1
                  · have hsi := hs i
                    rw [hab] at hsi
                    have := (List.pairwise_cons.1 (List.pairwise_append.1 hsi).2.1).1 z h1
                    exact absurd this hqz
              subst this
              exact i2 hze x hx
          · intro x hx
            refine ⟨hp, ?_⟩
            rcases List.mem_append.1 hx with hx | hx
            · exact Or.inl hx
            · obtain ⟨hqe, h3⟩ := i3 x hx
              rcases h3 with h3 | ⟨j, z, hz, hqz, hze, h3⟩
              · exact Or.inr ⟨i, q, hqv, hpq, hqe, h3⟩
              · exact Or.inr ⟨j, z, hz, by omega, hze, h3⟩
    · rw [if_neg hp] at h
      injection h with h
      subst h
      refine ⟨fun q _ h1 h2 => by omega, fun h => absurd h hp, by simp⟩

/-- **C109 (any order)** Whatever arrives, in any order: a found request carries the wanted frames of every payload that was
stored when it searched and is not before the search object's time, and nothing but wanted frames of payloads stored
while it ran. -/
theorem C109_between (T : PayloadType P) (geo : GeoId) (ft : Nat) (h : Hist P) (ho : h.Ok)
    (hs : StrictSorted T.ts h.base) (tm : Times) (ht : tm.Ok) (key : Nat) (running : Bool) (c : Counters)
    (dr : Request) (r : Result P) (f : Fragment P) (hr : request T geo ft h tm key running c dr = .ok r)
    (hc : r.code = .found) (hf : r.fragment = some f) :
    (∀ p ∈ h.at T.ts tm.lower, key ≤ T.ts p → T.ts p < dr.wEnd →
      ∀ x ∈ payloadPieces T dr.wBegin dr.wEnd p, x ∈ f.frames) ∧
    (∀ x ∈ f.frames, ∃ t p, tm.lower ≤ t ∧ p ∈ h.at T.ts t ∧ key ≤ T.ts p ∧ T.ts p < dr.wEnd ∧
      x ∈ payloadPieces T dr.wBegin dr.wEnd p) := by
  have hview : ∀ t, StrictSorted T.ts (h.at T.ts t) := fun t => after_sorted hs _
  unfold request at hr
  dsimp only at hr
  split at hr
  · split at hr
    · next first last hfst hlst =>
      split at hr
      · rcases lowerBound_split T.ts key (h.at T.ts tm.lower) with ⟨h1, h2⟩ | ⟨pre, p, suf, h1, h2, h3⟩
        · rw [h1] at hr
          dsimp only at hr
          split at hr <;> (injection hr with hr; rw [← hr] at hc; cases hc)
        · rw [h2] at hr
          dsimp only at hr
          cases hwk : walk T dr.wBegin dr.wEnd (fun i => h.at T.ts (tm.inc i)) (dr.wEnd + 1) 0 p with
          | ub w => simp [hwk] at hr
          | throws w => simp [hwk] at hr
          | ok fr =>
            rw [hwk, Outcome.bind_ok] at hr
            injection hr with hr
            subst hr
            dsimp only at hf
            have hff := Option.some.inj hf
            subst hff
            dsimp only
            obtain ⟨i1, i2, i3⟩ := walk_bounds T dr.wBegin dr.wEnd _ (h.at T.ts tm.lower) (fun i => hview _)
              (fun i => after_mono hs (ho.monoL _ _ (ht.d i))) _ _ _ _ hwk
            have hkp : key ≤ T.ts p := by
              have := List.find?_some h2
              simpa using this
            constructor
            · intro q hq hkq hqe x hx
              by_cases hpq : T.ts p < T.ts q
              · exact i1 q hq hpq hqe x hx
              · have hqm : q ∈ fromLowerBound T.ts (h.at T.ts tm.lower) key := by
                  rw [dropWhile_eq_filter _ _ _ (hview _)]
                  simp [hq, hkq]
                rw [h3] at hqm
                rcases List.mem_cons.1 hqm with rfl | hqm
                · exact i2 hqe x hx
                · have hv := hview tm.lower
                  rw [h1] at hv
                  exact absurd ((List.pairwise_cons.1 (List.pairwise_append.1 hv).2.1).1 q hqm) hpq
            · intro x hx
              obtain ⟨hpe, h4⟩ := i3 x hx
              rcases h4 with h4 | ⟨j, q, hq, hpq, hqe, h4⟩
              · exact ⟨tm.lower, p, Nat.le_refl _, by rw [h1]; simp, hkp, hpe, h4⟩
              · exact ⟨tm.inc j, q, ht.d j, hq, by omega, hqe, h4⟩
      · exfalso
        split at hr
        · injection hr with hr; rw [← hr] at hc; cases hc
        · split at hr
          · split at hr <;> (injection hr with hr; rw [← hr] at hc; cases hc)
          · injection hr with hr; rw [← hr] at hc; cases hc
    · cases hr
  · injection hr with hr; rw [← hr] at hc; cases hc

/-! ### Concrete requests -/

/-- Moments 0 (size), 1 (first), 2 (last), 3 (lower bound), 4, 5, ... (increments). -/
def tm0 : Times := ⟨0, 1, 2, 3, fun i => 4 + i⟩

theorem tm0_ok : tm0.Ok := ⟨by decide, by decide, by decide, by intro i; simp [tm0]; omega, by
  intro i j h; simp [tm0]; omega⟩

/-- Two payloads arrive in order while the request runs: one before the newest is looked up, one during the loop. -/
def ordered : Hist Nat :=
  ⟨[1000, 2000], [5000, 6000], fun t => if t < 2 then 0 else if t < 4 then 1 else 2,
    fun t => if t < 3 then 0 else if t < 5 then 1 else 2⟩

theorem ordered_ok : ordered.Ok where
  monoL s t h := by simp only [ordered]; split <;> split <;> (try split) <;> (try split) <;> omega
  monoC s t h := by simp only [ordered]; split <;> split <;> (try split) <;> (try split) <;> omega
  le t := by simp only [ordered]; split <;> split <;> (try split) <;> (try split) <;> omega
  lag t := by simp only [ordered]; split <;> split <;> (try split) <;> (try split) <;> omega
  all t := by simp only [ordered, List.length_cons, List.length_nil]; split <;> (try split) <;> omega

/-- The hypotheses of the theorems are met: the request finds its window because of the payload that arrived after it began. -/
example : ordered.Ok ∧ tm0.Ok ∧ InOrder pds ordered ∧ WellFormed pds (ordered.base ++ ordered.arr) ∧
    (∀ p ∈ ordered.base ++ ordered.arr, pds.ts p < 2000 → pds.ts p + (pds.nf p - 1) * pds.tick < 2000) ∧
    ∃ r f, request pds ⟨2, 0, 1⟩ 4 ordered tm0 2000 true ⟨0, 0, 0, 0, 0, 0⟩ (dr0 2000 3000) = .ok r ∧ r.code = .found ∧
      r.fragment = some f ∧ f.frames.length = 12 :=
  ⟨ordered_ok, tm0_ok, by unfold InOrder StrictSorted; decide, by unfold WellFormed; decide, by decide, _, _, rfl, rfl, rfl, by decide⟩

/-- Late payloads: 1500 arrives when the loop has passed it, 2500 directly afterwards. -/
def disordered : Hist Nat :=
  ⟨[1000, 2000, 3000], [1500, 2500], fun t => if t < 4 then 0 else 2, fun t => if t < 4 then 0 else 2⟩

theorem disordered_ok : disordered.Ok where
  monoL s t h := by simp only [disordered]; split <;> split <;> omega
  monoC s t h := by simp only [disordered]; split <;> split <;> omega
  le t := Nat.le_refl _
  lag t := Nat.le_succ _
  all t := by simp only [disordered, List.length_cons, List.length_nil]; split <;> omega

/-- **C109 is false of the code** for payloads that arrive late: the fragment carries the payload of time 2500 but not that
of time 1500, which arrived before it. No moment has such contents. -/
theorem C109_late_payload_counterexample :
    disordered.Ok ∧ tm0.Ok ∧ ∃ r f, request pds ⟨2, 0, 1⟩ 4 disordered tm0 1100 true ⟨0, 0, 0, 0, 0, 0⟩ (dr0 1100 2900) = .ok r ∧
      r.code = .found ∧ r.fragment = some f ∧ (2500, 0) ∈ f.frames ∧ (1500, 0) ∉ f.frames ∧
      ∀ k, (2500, 0) ∈ wanted pds (disordered.after pds.ts k) 1100 2900 →
        (1500, 0) ∈ wanted pds (disordered.after pds.ts k) 1100 2900 := by
  refine ⟨disordered_ok, tm0_ok, _, _, rfl, rfl, rfl, by decide, by decide, ?_⟩
  intro k
  match k with
  | 0 => decide
  | 1 => decide
  | k + 2 =>
    have : disordered.after pds.ts (k + 2) = disordered.after pds.ts 2 := by
      simp [Hist.after, disordered]
    rw [this]
    decide

end Verif.ConcList
