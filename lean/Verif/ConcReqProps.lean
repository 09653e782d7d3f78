import Verif.ConcReqWp
/- Property C91: requests that run while data arrives. -/
namespace Verif.ConcReq
open Verif.Ring Verif.Search Verif.DataReq
variable {P β γ : Type}

/-- Specification of the answer to a request when `l` is stored: code and counters as in C12, and a fragment with exactly
the stored frames of the window, an empty one with the error bit, or none. -/
def Answer (T : PayloadType P) (geo : GeoId) (ft : Nat) (l : List P) (dr : Request) (r : Result P) : Prop :=
  ∃ running, r.code = classify (bounds T l) running dr.wBegin dr.wEnd ∧
    r.counters = countersAfter (bounds T l) running dr.wBegin dr.wEnd ⟨0, 0, 0, 0, 0, 0⟩ ∧
    r.fragment = match r.code with
      | .found => some ⟨createHeader geo ft dr, wanted T l dr.wBegin dr.wEnd⟩
      | .notFound => some (createEmpty P geo ft dr)
      | .notYet => none

/-- The same, but with the fixed-rate lookup a window that ends before it begins may also be treated as one whose data has not
arrived yet. -/
def Reply (T : PayloadType P) (k : Lookup) (geo : GeoId) (ft : Nat) (l : List P) (dr : Request) (r : Result P) : Prop :=
  Answer T geo ft l dr r ∨ (k ≠ .binary ∧ dr.wEnd < dr.wBegin ∧
    (r = ⟨.notYet, none, ⟨0, 0, 0, 1, 0, 0⟩⟩ ∨ r = ⟨.notFound, some (createEmpty P geo ft dr), ⟨0, 1, 0, 1, 0, 0⟩⟩))

section
variable {T : PayloadType P} {k : Lookup} {n : Nat} {hw : Hw} {arr : List P → Prop}

theorem occ_mod (hn : 2 ≤ n) (p j : Nat) (h1 : p ≤ j) (h2 : j < p + n) : occIdx n (p % n) (j % n) = j - p := by
  have h := (ringOf_repr hn (List.replicate j ()) p j h1 h2 (by simp)).occ
  rw [stored_length _ _ _ (by simp)] at h
  exact h

theorem mod_eq_iff (hn : 2 ≤ n) (p j : Nat) (h1 : p ≤ j) (h2 : j < p + n) : p % n = j % n ↔ p = j := by
  have h := occ_mod hn p j h1 h2
  constructor
  · intro e
    rw [e] at h
    simp [occIdx] at h
    omega
  · rintro rfl; rfl

theorem pred_mod (hn : 2 ≤ n) (j : Nat) (hj : 0 < j) : (if j % n = 0 then n - 1 else j % n - 1) = (j - 1) % n := by
  have hr := Nat.mod_lt j (show 0 < n by omega)
  have h1 := Nat.mod_lt (j - 1) (show 0 < n by omega)
  have e : j % n = ((j - 1) % n + 1) % n := by
    conv => lhs; rw [show j = (j - 1) + 1 by omega, Nat.add_mod, Nat.mod_eq_of_lt (show 1 < n by omega)]
  generalize (j - 1) % n = r at *
  rw [e]
  by_cases hc : r + 1 < n
  · rw [Nat.mod_eq_of_lt hc]; simp
  · have : r + 1 = n := by omega
    rw [this, Nat.mod_self]; simp; omega

theorem occupancy_spec (hn : 2 ≤ n) (v : View P) :
    wp T k n hw arr (occupancy n) v fun v' o => ∃ j, v.seen ≤ j ∧ j ≤ v'.sync ∧
      (hw.fresh = true → v.pub.length ≤ j) ∧ o = j - v'.popped := by
  intro v1 f1 hf hsy v2 f2 v3 f3
  have e : v3.popped = v1.popped := f3.pop.trans f2.pop
  have h := f1.ok
  have hsy := hsy (.inl rfl)
  have ho : occIdx n (v1.popped % n) (v1.seen % n) = v1.seen - v1.popped :=
    occ_mod hn _ _ (Nat.le_trans h.low h.mid) (by have := h.room; have := h.high; omega)
  have hm : v1.seen ≤ v3.sync := hsy ▸ Nat.le_trans f2.sync f3.sync
  refine ⟨v1.seen, f1.mono, hm, ?_, ?_⟩
  · intro hh; rw [hf hh]; exact f1.pre.length_le
  · rw [ho, e]

theorem front_spec (hn : 2 ≤ n) (v : View P) (h : v.popped < v.seen) :
    wp T k n hw arr front v fun v' o => o = some (v'.popped % n) := by
  intro v1 f1 v2 f2 hf _ v3 f3
  have e : v3.popped = v.popped := f3.pop.trans (f2.pop.trans f1.pop)
  have h2 := f2.ok
  have hne : v.popped % n ≠ v2.seen % n := by
    have e2 : v2.popped = v.popped := f2.pop.trans f1.pop
    have := (f1.trans f2).mono
    rw [Ne, mod_eq_iff hn _ _ (by omega) (by have := h2.room; have := h2.high; omega)]
    omega
  rw [if_neg hne, e]

theorem back_spec (hn : 2 ≤ n) (hb : hw.back = .acquire ∨ hw.strong = true) (v : View P) (h : v.popped < v.seen) :
    wp T k n hw arr (back n hw.back) v fun v' o => ∃ j, v.seen ≤ j ∧ j ≤ v'.sync ∧
      (hw.fresh = true → v.pub.length ≤ j) ∧ o = some ((j - 1) % n) := by
  intro v1 f1 hf hsy v2 f2 v3 f3
  have h1 := f1.ok
  have hsy := hsy hb
  have hm := f1.mono
  have hne : v1.seen % n ≠ v1.popped % n := by
    have e2 : v1.popped = v.popped := f1.pop
    rw [Ne, eq_comm, mod_eq_iff hn _ _ (Nat.le_trans h1.low h1.mid) (by have := h1.room; have := h1.high; omega)]
    omega
  refine ⟨v1.seen, hm, hsy ▸ Nat.le_trans f2.sync f3.sync, ?_, ?_⟩
  · intro hh; rw [hf hh]; exact f1.pre.length_le
  · rw [if_neg hne, pred_mod hn _ (by omega)]

theorem elem_spec (hn : 2 ≤ n) (v : View P) (hv : v.Ok n arr) (m : Nat) (h1 : v.popped ≤ m) (h2 : m < v.sync)
    (f : P → Prog P β) (Q : View P → β → Prop)
    (h : ∀ v' x, Fut n arr v v' → v.pub[m]? = some x → wp T k n hw arr (f x) v' Q) :
    wp T k n hw arr (.elem (m % n) f) v Q := by
  have := hv.room
  have := hv.high
  have := hv.mid
  have e := number_slot (show 0 < n by omega) v.popped m h1 (by omega)
  refine ⟨⟨Nat.mod_lt _ (by omega), by rw [e]; exact h2⟩, ?_⟩
  intro v' x f' hx
  rw [e] at hx
  exact h v' x f' hx

theorem good_spec (hn : 2 ≤ n) (hs : n < 2147483648) (v : View P) (m : Nat) (h1 : v.popped ≤ m) (h2 : m < v.seen) :
    wp T k n hw arr (good hw.good (m % n)) v fun _ g => g = true := by
  intro v1 f1 v2 f2 hf _ v3 f3
  have ok := f2.ok
  have e : v2.popped = v.popped := f2.pop.trans f1.pop
  have hm := (f1.trans f2).mono
  have hlow := Nat.le_trans ok.low ok.mid; have hroom := ok.room; have hhigh := ok.high
  have hr := ringOf_repr hn v2.pub v2.popped v2.seen hlow (by omega) hhigh
  have := (hr.occupied (show n ≤ endIdx by simp [endIdx]; omega) (m % n) (Nat.mod_lt _ (by omega))).2
    ⟨m - v.popped, ?_, ?_⟩
  · rw [e] at this
    exact this
  · rw [stored_length _ _ _ hhigh]; omega
  · show m % n = slotIdx n (v2.popped % n) _
    rw [slot_mod (by omega) _ _ (by omega), e]; congr 1; omega

theorem inc_spec (hn : 2 ≤ n) (hs : n < 2147483648) (v : View P) (hv : v.Ok n arr) (m : Nat) (h1 : v.popped ≤ m)
    (h2 : m + 1 < v.seen) :
    wp T k n hw arr (inc hw.good n (m % n)) v fun _ i => i = (m + 1) % n := by
  refine wp_seq T k n hw arr hv (good_spec hn hs v m h1 (by omega)) ?_
  rintro v1 _ f1 rfl
  have e : (if m % n + 1 = n then 0 else m % n + 1) = (m + 1) % n := by
    have := slot_mod (show 0 < n by omega) m 1 (by omega)
    have hr := Nat.mod_lt m (show 0 < n by omega)
    rw [← this]; unfold slotIdx; split <;> split <;> omega
  simp only [if_true, e]
  refine wp_seq T k n hw arr f1.ok (good_spec hn hs v1 (m + 1) (by rw [f1.pop]; omega)
    (by have := f1.mono; omega)) ?_
  rintro v2 _ f2 rfl
  intro v3 _
  rfl

theorem ringOf_prefix {l m : List P} (h : l <+: m) (p j : Nat) (hj : j ≤ l.length) :
    ringOf n m p j = ringOf n l p j := by
  unfold ringOf
  congr 1
  funext i
  split
  · rw [prefix_get h (by omega)]
  · rfl

theorem search_spec (key : P → Nat) (t : Nat) (fuel s e j r : Nat) (v : View P) (hv : v.Ok n arr) (hj : j ≤ v.sync)
    (h : Search.searchLoop (ringOf n v.pub v.popped j) key t fuel s e = .ok (some r)) :
    wp T k n hw arr (searchLoop n key t fuel s e) v fun _ i => i = r := by
  induction fuel generalizing s e v with
  | zero => simp [Search.searchLoop] at h
  | succ fuel ih =>
    have hh := hv.high
    have hmid := hv.mid
    unfold Search.searchLoop at h
    unfold searchLoop
    simp only [show (ringOf n v.pub v.popped j).size = n from rfl] at h
    generalize (if s ≤ e then e - s else n + e - s) = diff at h ⊢
    dsimp only at h ⊢
    generalize (if s + (diff + 1) / 2 ≥ n then s + (diff + 1) / 2 - n else s + (diff + 1) / 2) = m at h ⊢
    cases hl : (ringOf n v.pub v.popped j).load m with
    | ub u => rw [hl] at h; simp at h
    | throws u => rw [hl] at h; simp at h
    | ok x =>
      rw [hl, Outcome.bind_ok] at h
      obtain ⟨⟨g1, g2⟩, g3⟩ := (ringOf_load _ _ _ _ _).1 hl
      refine ⟨⟨g1, by omega⟩, ?_⟩
      intro v' y f' hy
      rw [g3] at hy
      injection hy with hy
      subst hy
      by_cases hd : diff = 0
      · simp only [hd, if_true] at h ⊢
        injection h with h
        injection h with h
        exact fun _ _ => h
      · simp only [hd, if_false] at h ⊢
        rw [← ringOf_prefix f'.pre _ _ (by omega), ← f'.pop] at h
        have hj' : j ≤ v'.sync := Nat.le_trans hj f'.sync
        by_cases ht : t < key x
        · simp only [ht, if_true] at h ⊢
          exact ih _ _ v' f'.ok hj' h
        · simp only [ht, if_false] at h ⊢
          exact ih _ _ v' f'.ok hj' h

/-- Payload times strictly increase. -/
theorem ts_lt {l : List P} (hw : WellFormed T l) (hi : Increasing T l) {i j : Nat} {a b : P} (hij : i < j)
    (ha : l[i]? = some a) (hb : l[j]? = some b) : T.ts a < T.ts b := by
  have hp := increasing_pairwise T l hw hi
  obtain ⟨h1, e1⟩ := List.getElem?_eq_some_iff.1 ha
  obtain ⟨h2, e2⟩ := List.getElem?_eq_some_iff.1 hb
  have := List.pairwise_iff_getElem.1 hp i j h1 h2 hij 0
  rw [e1, e2] at this
  have hwa := hw a (List.mem_of_getElem? ha)
  have := this hwa.1
  rw [hwa.2 0 hwa.1] at this
  omega

theorem sorted_stored {l : List P} (hw : WellFormed T l) (hi : Increasing T l) (p j : Nat) :
    Sorted T.ts (stored l p j) := by
  intro i i' a b hij ha hb
  rw [stored_get] at ha hb
  split at ha
  · split at hb
    · rcases Nat.lt_or_eq_of_le hij with h | h
      · exact Nat.le_of_lt (ts_lt hw hi (show p + i < p + i' by omega) ha hb)
      · subst h; rw [ha] at hb; injection hb with e; rw [e]; exact Nat.le_refl _
    · simp at hb
  · simp at ha

/-- What was found with more payloads in view is what would have been found with fewer. -/
theorem covers_shrink {l : List P} (hw : WellFormed T l) (hi : Increasing T l) {p j j' t c : Nat} (hj : j ≤ j')
    (hpj : p < j) {z : P} (hz : l[j - 1]? = some z) (ht : t ≤ T.ts z) (h : Covers T.ts (stored l p j') t c) :
    c < j - p ∧ Covers T.ts (stored l p j) t c := by
  obtain ⟨⟨a, ha, hle⟩, h2⟩ := h
  rw [stored_get] at ha
  split at ha
  · have hc : c < j - p := by
      rcases Nat.lt_or_ge c (j - p) with h | h
      · exact h
      · have := ts_lt hw hi (show j - 1 < p + c by omega) hz ha
        omega
    refine ⟨hc, ⟨a, ?_, hle⟩, ?_⟩
    · rw [stored_get, if_pos (by omega), ha]
    · intro i b hci hb
      refine h2 i b hci ?_
      rw [stored_get] at hb ⊢
      split at hb
      · rw [if_pos (by omega)]; exact hb
      · simp at hb
  · simp at ha

/-- The binary search finds the payload that covers `t` among those in view when it begins. -/
theorem lowerBound_all (hn : 2 ≤ n) (ha : ArrOk T k n arr) (v : View P) (hv : v.Ok n arr) (t : Nat)
    (h1 : v.popped < v.seen ∨ hw.fresh = true) (a : P) (h3 : v.pub[v.popped]? = some a) (h5 : T.ts a ≤ t) :
    wp T k n hw arr (lowerBound n T.ts t) v fun v' i => ∃ j m, v.seen ≤ j ∧ j ≤ v'.sync ∧ v.popped ≤ m ∧ m < j ∧ i = m % n ∧
      Covers T.ts (stored v'.pub v.popped j) t (m - v.popped) ∧ (hw.fresh = true → v.pub.length ≤ j) := by
  intro v1 f1 v2 f2 hf hsy
  have f := f1.trans f2
  have ok := f.ok
  have hsy := hsy (.inl rfl)
  have hlow := Nat.le_trans ok.low ok.mid; have hroom := ok.room; have hhigh := ok.high; have hm := f.mono; have hp := f.pop
  have hvh := hv.high
  have hl3 := getElem?_lt h3
  have hpl := f.pre.length_le
  have hfl : hw.fresh = true → v.pub.length ≤ v2.seen := fun h => by rw [hf h]; exact hpl
  have hps : v.popped < v2.seen := by
    rcases h1 with h | h
    · omega
    · have := hfl h; omega
  have hr := ringOf_repr hn v2.pub v2.popped v2.seen hlow (by omega) hhigh
  obtain ⟨hwf, hi⟩ := ha.wf _ ok.arr
  have h3' : v2.pub[v2.popped]? = some a := by rw [hp, f.get (by omega)]; exact h3
  have h0 : (stored v2.pub v2.popped v2.seen)[0]? = some a := by
    rw [stored_get, if_pos (by omega)]; exact h3'
  have hne : v2.popped % n ≠ v2.seen % n := by
    rw [Ne, mod_eq_iff hn _ _ hlow (by omega)]; omega
  rw [← hp]
  dsimp only
  rw [if_neg hne]
  refine elem_spec hn v2 ok v2.popped (Nat.le_refl _) (by omega) _ _ ?_
  intro v3 x f3 hx
  rw [h3'] at hx
  injection hx with hx
  subst hx
  rw [if_neg (show ¬ t < T.ts a by omega)]
  rcases C07_binary_search T.ts _ _ hr (sorted_stored hwf hi _ _) t n
    (by rw [stored_length _ _ _ hhigh]; omega) with ⟨hb, -⟩ | ⟨-, c, e, hc⟩
  · exfalso
    rcases hb with hb | ⟨b, hb, hlt⟩
    · rw [hb] at h0; simp at h0
    · rw [h0] at hb; injection hb with hb; subst hb; omega
  · have hl : (ringOf n v2.pub v2.popped v2.seen).load (v2.popped % n) = .ok a := by
      rw [ringOf_load, number_slot (by omega) _ _ (Nat.le_refl _) (by omega)]
      exact ⟨⟨Nat.mod_lt _ (by omega), by omega⟩, h3'⟩
    unfold Search.lowerBound at e
    simp only [show (ringOf n v2.pub v2.popped v2.seen).rd = v2.popped % n from rfl,
      show (ringOf n v2.pub v2.popped v2.seen).wr = v2.seen % n from rfl,
      show (ringOf n v2.pub v2.popped v2.seen).size = n from rfl, if_neg hne, hl, Outcome.bind_ok,
      if_neg (show ¬ t < T.ts a by omega)] at e
    rw [← ringOf_prefix f3.pre _ _ hhigh] at e
    have e' := e
    rw [show ringOf n v3.pub v2.popped v2.seen = ringOf n v3.pub v3.popped v2.seen by rw [f3.pop]] at e'
    refine wp_conseq T k n hw arr (search_spec T.ts t n _ _ v2.seen _ v3 f3.ok (hsy ▸ f3.sync) e') ?_
    rintro v4 i f4 rfl
    have f24 := f3.trans f4
    have e24 : stored v4.pub v2.popped v2.seen = stored v2.pub v2.popped v2.seen := stored_prefix f24.pre _ _ hhigh
    have hcl : c < v2.seen - v2.popped := by
      obtain ⟨⟨b, hb, -⟩, -⟩ := hc
      have := getElem?_lt hb
      rw [stored_length _ _ _ hhigh] at this
      exact this
    have h24 := f24.sync
    refine ⟨v2.seen, v2.popped + c, by omega, by omega, by omega, by omega, ?_, ?_, hfl⟩
    · exact slot_mod (by omega) _ _ (by omega)
    · rw [e24, show v2.popped + c - v2.popped = c by omega]; exact hc

theorem lowerBound_spec (hn : 2 ≤ n) (ha : ArrOk T k n arr) (v : View P) (hv : v.Ok n arr) (j t : Nat)
    (h1 : v.popped < j) (h2 : j ≤ v.seen) (a z : P) (h3 : v.pub[v.popped]? = some a) (h4 : v.pub[j - 1]? = some z)
    (h5 : T.ts a ≤ t) (h6 : t ≤ T.ts z) :
    wp T k n hw arr (lowerBound n T.ts t) v fun _ i => ∃ m, v.popped ≤ m ∧ m < j ∧ i = m % n ∧
      Covers T.ts (stored v.pub v.popped j) t (m - v.popped) := by
  have hvh := hv.high
  refine wp_conseq T k n hw arr (lowerBound_all hn ha v hv t (.inl (by omega)) a h3 h5) ?_
  rintro v' i f ⟨j', m, g1, g2, g3, g4, rfl, hc, -⟩
  obtain ⟨hwf, hi⟩ := ha.wf _ f.ok.arr
  have hs : stored v'.pub v.popped j = stored v.pub v.popped j := stored_prefix f.pre _ _ (by omega)
  obtain ⟨hcl, hc'⟩ := covers_shrink hwf hi (show j ≤ j' by omega) (by omega)
    (by rw [f.get (by omega)]; exact h4) h6 hc
  exact ⟨m, g3, by omega, rfl, by rw [← hs]; exact hc'⟩

/-- A time later than the newest payload: the search gives that payload or one that arrived since. -/
theorem lowerBound_late (hn : 2 ≤ n) (ha : ArrOk T k n arr) (v : View P) (hv : v.Ok n arr) (j t : Nat)
    (h1 : v.popped < j) (h2 : j ≤ v.seen) (a z : P) (h3 : v.pub[v.popped]? = some a) (h4 : v.pub[j - 1]? = some z)
    (h5 : T.ts a ≤ t) (h6 : T.ts z < t) :
    wp T k n hw arr (lowerBound n T.ts t) v fun v' i => ∃ m, j - 1 ≤ m ∧ m < v.popped + n ∧ m < v'.sync ∧
      i = m % n := by
  have hvh := hv.high
  refine wp_conseq T k n hw arr (lowerBound_all hn ha v hv t (.inl (by omega)) a h3 h5) ?_
  rintro v' i f ⟨j', m, g1, g2, g3, g4, rfl, hc, -⟩
  obtain ⟨hwf, hi⟩ := ha.wf _ f.ok.arr
  obtain ⟨⟨x, hx, -⟩, hc2⟩ := hc
  rw [stored_get, if_pos (by omega), show v.popped + (m - v.popped) = m by omega] at hx
  have hz' : v'.pub[j - 1]? = some z := by rw [f.get (by omega)]; exact h4
  have hroom := f.ok.room; have hh := f.ok.high; have hmid := f.ok.mid; have hpop := f.pop
  refine ⟨m, ?_, by omega, by omega, rfl⟩
  rcases Nat.lt_or_ge m (j - 1) with h | h
  · have := hc2 (j - 1 - v.popped) z (by omega) (by
      rw [stored_get, if_pos (by omega), show v.popped + (j - 1 - v.popped) = j - 1 by omega]; exact hz')
    omega
  · exact h

theorem fixed_spec (hn : 2 ≤ n) (hs : n < 2147483648) (nf : Nat) (ha : ArrOk T (.fixed nf) n arr) (v : View P)
    (hv : v.Ok n arr) (j t : Nat)
    (h1 : v.popped < j) (h2 : j ≤ v.seen) (a z : P) (h3 : v.pub[v.popped]? = some a) (h4 : v.pub[j - 1]? = some z)
    (h5 : T.ts a ≤ t) (h6 : t ≤ T.ts z) (hg : GapFree T.ts (T.tick * nf) (stored v.pub v.popped j)) :
    wp T (.fixed nf) n hw arr (fixedLowerBound n T.ts T.tick nf t) v fun _ i => ∃ m, v.popped ≤ m ∧ m < j ∧
      i = m % n ∧ Covers T.ts (stored v.pub v.popped j) t (m - v.popped) := by
  intro v1 f1
  refine wp_bind T _ n hw arr f1.ok (wp_conseq T _ n hw arr (occupancy_spec hn v1) ?_)
  rintro v2 _ f2 ⟨j', g1, g2, -, rfl⟩
  have f := f1.trans f2
  have hvh := hv.high; have hm := f.mono; have hp := f.pop; have ok := f.ok
  have hroom := ok.room; have hhigh := ok.high; have hm1 := f1.mono; have hmid := ok.mid
  obtain ⟨ht, hnf, hov⟩ := ha.fixed nf rfl
  have h3' : v2.pub[v2.popped]? = some a := by rw [hp, f.get (by omega)]; exact h3
  rw [← hp]
  refine elem_spec hn v2 ok v2.popped (Nat.le_refl _) (by omega) _ _ ?_
  intro v3 x f3 hx
  rw [h3'] at hx
  injection hx with hx
  subst hx
  have hlen := stored_length v.pub v.popped j (by omega)
  have h0 : (stored v.pub v.popped j)[0]? = some a := by rw [stored_get, if_pos (by omega)]; exact h3
  have hlast := hg.at h0 (j - 1 - v.popped) z (by
    rw [stored_get, if_pos (by omega), show v.popped + (j - 1 - v.popped) = j - 1 by omega]; exact h4)
  have hpos : 0 < T.tick * nf := Nat.mul_pos ht hnf
  have hlt : t < T.ts a + (stored v.pub v.popped j).length * (T.tick * nf) := by
    rw [hlen]
    have : (j - 1 - v.popped) * (T.tick * nf) + (T.tick * nf) = (j - v.popped) * (T.tick * nf) := by
      conv => rhs; rw [show j - v.popped = (j - 1 - v.popped) + 1 by omega, Nat.add_mul, Nat.one_mul]
    omega
  have hcov := covers_gapfree hpos hg h0 h5 hlt
  have hc : (t - T.ts a) / (T.tick * nf) < j - v.popped := by
    obtain ⟨⟨b, hb, -⟩, -⟩ := hcov
    have := getElem?_lt hb
    omega
  have hmul : (j' - v2.popped) * T.tick * nf ≤ n * T.tick * nf :=
    Nat.mul_le_mul_right _ (Nat.mul_le_mul_right _ (by omega))
  have hov' := hov _ ok.arr a (List.mem_of_getElem? h3')
  have hnew : u64 (T.ts a + (j' - v2.popped) * T.tick * nf) = T.ts a + (j' - v2.popped) * T.tick * nf := by
    unfold u64; exact Nat.mod_eq_of_lt (by omega)
  have hle : (stored v.pub v.popped j).length * (T.tick * nf) ≤ (j' - v2.popped) * T.tick * nf := by
    rw [Nat.mul_assoc]; exact Nat.mul_le_mul_right _ (by omega)
  simp only [hnew]
  rw [if_neg (by omega), if_neg (by omega), if_neg (by omega)]
  intro v4 f4
  rw [Nat.div_div_eq_div_mul]
  generalize (t - T.ts a) / (T.tick * nf) = c at *
  have hr := Nat.mod_lt v2.popped (show 0 < n by omega)
  have e1 : u32 c = c := by unfold u32; exact Nat.mod_eq_of_lt (by omega)
  have e2 : u32 (v2.popped % n + c) = v2.popped % n + c := by unfold u32; exact Nat.mod_eq_of_lt (by omega)
  refine ⟨v.popped + c, by omega, by omega, ?_, by
    rw [show v.popped + c - v2.popped = c by omega, hp]; exact hcov⟩
  rw [e1, e2, ← hp, ← slot_mod (by omega) _ _ (by omega)]
  unfold slotIdx
  split <;> split <;> omega

/-- A time later than the newest payload: the fixed-rate lookup gives no payload, or one not before the newest, which may not
have arrived. -/
theorem fixed_late (hn : 2 ≤ n) (hs : n < 2147483648) (nf : Nat) (ha : ArrOk T (.fixed nf) n arr) (v : View P)
    (hv : v.Ok n arr) (j t : Nat)
    (h1 : v.popped < j) (h2 : j ≤ v.seen) (a z : P) (h3 : v.pub[v.popped]? = some a) (h4 : v.pub[j - 1]? = some z)
    (h5 : T.ts a ≤ t) (h6 : T.ts z < t) (hg : GapFree T.ts (T.tick * nf) (stored v.pub v.popped j)) :
    wp T (.fixed nf) n hw arr (fixedLowerBound n T.ts T.tick nf t) v fun _ i => i = endIdx ∨ ∃ m, j - 1 ≤ m ∧
      m < v.popped + n ∧ i = m % n := by
  intro v1 f1
  refine wp_bind T _ n hw arr f1.ok (wp_conseq T _ n hw arr (occupancy_spec hn v1) ?_)
  rintro v2 _ f2 ⟨j', g1, g2, -, rfl⟩
  have f := f1.trans f2
  have hvh := hv.high; have hm := f.mono; have hp := f.pop; have ok := f.ok
  have hroom := ok.room; have hhigh := ok.high; have hm1 := f1.mono; have hmid := ok.mid
  obtain ⟨ht, hnf, hov⟩ := ha.fixed nf rfl
  have h3' : v2.pub[v2.popped]? = some a := by rw [hp, f.get (by omega)]; exact h3
  rw [← hp]
  refine elem_spec hn v2 ok v2.popped (Nat.le_refl _) (by omega) _ _ ?_
  intro v3 x f3 hx
  rw [h3'] at hx
  injection hx with hx
  subst hx
  have h0 : (stored v.pub v.popped j)[0]? = some a := by rw [stored_get, if_pos (by omega)]; exact h3
  have hlast := hg.at h0 (j - 1 - v.popped) z (by
    rw [stored_get, if_pos (by omega), show v.popped + (j - 1 - v.popped) = j - 1 by omega]; exact h4)
  have hpos : 0 < T.tick * nf := Nat.mul_pos ht hnf
  have hmul : (j' - v2.popped) * T.tick * nf ≤ n * T.tick * nf :=
    Nat.mul_le_mul_right _ (Nat.mul_le_mul_right _ (by omega))
  have hov' := hov _ ok.arr a (List.mem_of_getElem? h3')
  have hnew : u64 (T.ts a + (j' - v2.popped) * T.tick * nf) = T.ts a + (j' - v2.popped) * T.tick * nf := by
    unfold u64; exact Nat.mod_eq_of_lt (by omega)
  simp only [hnew]
  by_cases hfar : T.ts a > t ∨ t > T.ts a + (j' - v2.popped) * T.tick * nf
  · rw [if_pos hfar]
    intro v4 _
    exact .inl rfl
  rw [if_neg hfar, if_neg (by omega), if_neg (by omega)]
  intro v4 f4
  rw [Nat.div_div_eq_div_mul]
  have hlo : j - 1 - v.popped ≤ (t - T.ts a) / (T.tick * nf) := by
    rw [Nat.le_div_iff_mul_le hpos]
    omega
  have hhi : (t - T.ts a) / (T.tick * nf) ≤ j' - v2.popped := by
    have e : (j' - v2.popped) * T.tick * nf = (j' - v2.popped) * (T.tick * nf) := Nat.mul_assoc _ _ _
    exact Nat.div_le_of_le_mul (by rw [Nat.mul_comm]; omega)
  generalize (t - T.ts a) / (T.tick * nf) = c at *
  have hr := Nat.mod_lt v2.popped (show 0 < n by omega)
  have e1 : u32 c = c := by unfold u32; exact Nat.mod_eq_of_lt (by omega)
  have e2 : u32 (v2.popped % n + c) = v2.popped % n + c := by unfold u32; exact Nat.mod_eq_of_lt (by omega)
  refine .inr ⟨v.popped + c, by omega, by omega, ?_⟩
  rw [e1, e2, ← hp, ← slot_mod (by omega) _ _ (by omega)]
  unfold slotIdx
  split <;> split <;> omega

/-- `good()` at a payload that need not have arrived: if loads synchronise, it may be read after that. -/
theorem good_sync (hn : 2 ≤ n) (hs : n < 2147483648) (v : View P) (m : Nat) (h1 : v.popped ≤ m) (h2 : m < v.popped + n)
    (h3 : m < v.sync ∨ hw.good = .acquire ∨ hw.strong = true) :
    wp T k n hw arr (good hw.good (m % n)) v fun v' g => g = true → m < v'.sync := by
  intro v1 f1 v2 f2 hf hsy v3 f3 hg
  have ok := f2.ok
  have e : v2.popped = v.popped := f2.pop.trans f1.pop
  have hms := f3.sync; have hms2 := (f1.trans f2).sync
  rcases h3 with h3 | h3
  · omega
  have hsy := hsy h3
  have hlow := Nat.le_trans ok.low ok.mid; have hroom := ok.room; have hhigh := ok.high
  have hr := ringOf_repr hn v2.pub v2.popped v2.seen hlow (by omega) hhigh
  have := (hr.occupied (show n ≤ endIdx by simp [endIdx]; omega) (m % n) (Nat.mod_lt _ (by omega))).1
    (by rw [← e] at hg; exact hg)
  obtain ⟨c, hc, hcm⟩ := this
  rw [stored_length _ _ _ hhigh] at hc
  have e2 := slot_mod (show 0 < n by omega) v2.popped c (by omega)
  have e3 : m % n = (v2.popped + c) % n := hcm.trans e2
  have := number_slot (show 0 < n by omega) v2.popped m (by omega) (by omega)
  have := number_slot (show 0 < n by omega) v2.popped (v2.popped + c) (by omega) (by omega)
  rw [e3] at *
  omega

/-- Nothing is taken for a window that ends before the payload at which the extraction begins. -/
theorem extract_none (hn : 2 ≤ n) (hs : n < 2147483648) (ha : ArrOk T k n arr) (j b e : Nat) (z : P) (fuel m : Nat) (v : View P)
    (hv : v.Ok n arr) (h0 : v.popped < j) (h1 : j - 1 ≤ m) (h2 : m < v.popped + n) (h3 : m < v.sync ∨ hw.good = .acquire ∨ hw.strong = true)
    (hj : j ≤ v.sync) (h4 : v.pub[j - 1]? = some z) (h5 : e ≤ T.ts z) :
    wp T k n hw arr (extract T hw.good n b e (fuel + 1) (m % n)) v fun _ fs => fs = [] := by
  unfold extract
  refine wp_seq T _ n hw arr hv (good_sync hn hs v m (by omega) h2 h3) ?_
  rintro v8 g f8 hg
  have hvh := hv.high; have hvm := hv.mid
  cases g with
  | false => intro v9 _; rfl
  | true =>
    have hg := hg rfl
    have hp8 := f8.pop; have hm8 := f8.sync
    refine elem_spec hn v8 f8.ok m (by omega) hg _ _ ?_
    intro v9 y f9 hy
    obtain ⟨hwf, hi⟩ := ha.wf _ f8.ok.arr
    have hz' : v8.pub[j - 1]? = some z := by rw [f8.get (by omega)]; exact h4
    have : T.ts z ≤ T.ts y := by
      rcases Nat.lt_or_ge (j - 1) m with h | h
      · exact Nat.le_of_lt (ts_lt hwf hi h hz' hy)
      · have : m = j - 1 := by omega
        subst this; rw [hz'] at hy; injection hy with hy; rw [hy]; exact Nat.le_refl _
    rw [if_neg (by omega)]
    intro v10 _
    rfl

theorem lookup_spec (hn : 2 ≤ n) (hs : n < 2147483648) (ha : ArrOk T k n arr) (b : Bool) (v : View P)
    (hv : v.Ok n arr) (j t : Nat)
    (h1 : v.popped < j) (h2 : j ≤ v.seen) (a z : P) (h3 : v.pub[v.popped]? = some a) (h4 : v.pub[j - 1]? = some z)
    (h5 : T.ts a ≤ t) (h6 : t ≤ T.ts z) (hg : Told T k (stored v.pub v.popped j) b) :
    wp T k n hw arr (lookup T k n b t) v fun _ i => ∃ m, v.popped ≤ m ∧ m < j ∧
      i = m % n ∧ Covers T.ts (stored v.pub v.popped j) t (m - v.popped) := by
  cases k with
  | binary => exact lowerBound_spec hn ha v hv j t h1 h2 a z h3 h4 h5 h6
  | fixed nf =>
    cases b with
    | true => exact lowerBound_spec hn ha v hv j t h1 h2 a z h3 h4 h5 h6
    | false => exact fixed_spec hn hs nf ha v hv j t h1 h2 a z h3 h4 h5 h6 (hg rfl)

theorem extract_spec (hn : 2 ≤ n) (hs : n < 2147483648) (j b e : Nat) (z : P) (fuel m : Nat) (v : View P)
    (hv : v.Ok n arr) (h1 : v.popped ≤ m) (h2 : m < j) (h3 : j ≤ v.sync) (h4 : v.pub[j - 1]? = some z)
    (h5 : e ≤ T.ts z) (h6 : j < fuel + m) :
    wp T k n hw arr (extract T hw.good n b e fuel (m % n)) v fun _ fs =>
      fs = extractSkip T b e ((stored v.pub v.popped j).drop (m - v.popped)) := by
  induction fuel generalizing m v with
  | zero => omega
  | succ fuel ih =>
    have hvh := hv.high; have hvm := hv.mid
    unfold extract
    refine wp_seq T k n hw arr hv (good_spec hn hs v m h1 (by omega)) ?_
    rintro v1 _ f1 rfl
    have hp1 := f1.pop; have hm1 := f1.sync
    refine elem_spec hn v1 f1.ok m (by omega) (by omega) _ _ ?_
    intro v2 x f2 hx
    rw [f1.get (by omega)] at hx
    have hd : (stored v.pub v.popped j).drop (m - v.popped) =
        x :: (stored v.pub v.popped j).drop (m + 1 - v.popped) := by
      have hg : (stored v.pub v.popped j)[m - v.popped]? = some x := by
        rw [stored_get, show v.popped + (m - v.popped) = m by omega, if_pos h2, hx]
      obtain ⟨hlt, hget⟩ := List.getElem?_eq_some_iff.1 hg
      rw [List.drop_eq_getElem_cons hlt, hget, show m - v.popped + 1 = m + 1 - v.popped by omega]
    rw [hd]
    by_cases ht : T.ts x < e
    · rw [if_pos ht]
      have hmj : m + 1 < j := by
        rcases Nat.lt_or_ge (m + 1) j with h | h
        · exact h
        · have : m = j - 1 := by omega
          rw [this, h4] at hx; injection hx with hx; subst hx; omega
      have hp2 := f2.pop; have hm2 := f2.sync; have hd2 := f2.ok.mid
      refine wp_seq T k n hw arr f2.ok (inc_spec hn hs v2 f2.ok m (by omega) (by omega)) ?_
      rintro v3 _ f3 rfl
      have f := (f1.trans f2).trans f3
      have hp := f.pop; have hm := f.sync
      refine wp_seq T k n hw arr f.ok (ih (m + 1) v3 f.ok (by omega) hmj (by omega)
        (by rw [f.get (by omega)]; exact h4) (by omega)) ?_
      rintro v4 _ f4 rfl
      intro v5 _
      rw [extractSkip, if_pos ht, hp, stored_prefix f.pre _ _ (by omega)]
    · rw [if_neg ht]
      intro v3 _
      rw [extractSkip, if_neg ht]

theorem bounds_stored {l : List P} {p j : Nat} (hp : p < j) (hj : j ≤ l.length) {a z : P} (h0 : l[p]? = some a)
    (hz : l[j - 1]? = some z) : bounds T (stored l p j) = some (T.ts a, T.ts z) := by
  have h1 : (stored l p j).head? = some a := by
    rw [List.head?_eq_getElem?, stored_get, if_pos (by omega)]; exact h0
  have h2 : (stored l p j).getLast? = some z := by
    rw [List.getLast?_eq_getElem?, stored_length _ _ _ hj, stored_get, if_pos (by omega),
      show p + (j - p - 1) = j - 1 by omega, hz]
  simp [bounds, h1, h2]

theorem wf_drop {l : List P} (h : WellFormed T l) (i : Nat) : WellFormed T (l.drop i) :=
  fun p hp => h p (List.mem_of_mem_drop hp)

theorem wf_stored {l : List P} (h : WellFormed T l) (p j : Nat) : WellFormed T (stored l p j) :=
  wf_drop (fun x hx => h x (List.mem_of_mem_take hx)) _

theorem inc_drop {l : List P} (h : Increasing T l) (i : Nat) : Increasing T (l.drop i) :=
  (increasing_append T (l := l.take i) (m := l.drop i) (by rw [List.take_append_drop]; exact h)).2.1

theorem inc_stored {l : List P} (h : Increasing T l) (p j : Nat) : Increasing T (stored l p j) :=
  inc_drop (increasing_append T (l := l.take j) (m := l.drop j) (by rw [List.take_append_drop]; exact h)).1 _

theorem told_stored {l : List P} {p j : Nat} {b : Bool} (h : Told T k (l.drop p) b) :
    Told T k (stored l p j) b := by
  cases k with
  | binary => trivial
  | fixed nf =>
    intro hb i x y hx hy
    rw [stored_get] at hx hy
    split at hx
    · split at hy
      · exact h hb i x y (by rw [List.getElem?_drop]; exact hx) (by rw [List.getElem?_drop]; exact hy)
      · simp at hy
    · simp at hx

/-- A request ends well and answers for the contents at one moment between its begin and its end. -/
theorem request_spec (geo : GeoId) (ft : Nat) (hn : 2 ≤ n) (hs : n < 2147483648) (ha : ArrOk T k n arr)
    (hb : hw.back = .acquire ∨ hw.strong = true) (dr : Request) (hwin : k = .binary ∨ dr.wBegin ≤ dr.wEnd ∨ hw.good = .acquire ∨ hw.strong = true)
    (v : View P) (hv : v.Ok n arr) :
    wp T k n hw arr (dataRequest T k geo ft n hw.back hw.good dr) v fun v' r => ∃ j, v.seen ≤ j ∧ j ≤ v'.seen ∧
      (hw.fresh = true → v.pub.length ≤ j) ∧ Reply T k geo ft (stored v'.pub v'.popped j) dr r := by
  unfold dataRequest
  refine wp_seq T k n hw arr hv (occupancy_spec hn v) ?_
  rintro v1 occ f1 ⟨j1, a1, a2, a3, rfl⟩
  have hvl := hv.low
  have hp1 := f1.pop; have hd1 := f1.ok.mid; have hvm := hv.mid
  by_cases hocc : j1 - v1.popped = 0
  · rw [if_neg (by simp [hocc])]
    intro v2 f2
    have hp2 := f2.pop
    have hm2 := f2.sync
    have hd2 := f2.ok.mid
    refine ⟨j1, a1, by omega, a3, .inl ⟨false, ?_⟩⟩
    have : stored v2.pub v2.popped j1 = [] := by
      have := f2.ok.high
      apply List.eq_nil_of_length_eq_zero
      rw [stored_length _ _ _ (by omega)]; omega
    rw [this]
    exact ⟨rfl, rfl, rfl⟩
  · rw [if_pos hocc]
    refine wp_seq T k n hw arr f1.ok (front_spec hn v1 (by omega)) ?_
    rintro v2 _ f2 rfl
    have hp2 := f2.pop; have hm2 := f2.sync; have hd2 := f2.ok.mid
    refine wp_seq T k n hw arr f2.ok (back_spec hn hb v2 (by omega)) ?_
    rintro v3 _ f3 ⟨j, b1, b2, b3, rfl⟩
    have hp3 := f3.pop; have hm3 := f3.sync; have hd3 := f3.ok.mid
    have hfresh : hw.fresh = true → v.pub.length ≤ j := fun hh =>
      Nat.le_trans (f1.trans f2).pre.length_le (b3 hh)
    rw [← hp3]
    refine elem_spec hn v3 f3.ok v3.popped (Nat.le_refl _) (by omega) _ _ ?_
    intro v4 a f4 hf
    have hp4 := f4.pop; have hm4 := f4.sync; have hd4 := f4.ok.mid
    refine elem_spec hn v4 f4.ok (j - 1) (by omega) (by omega) _ _ ?_
    intro v5 z f5 hz
    have hp5 := f5.pop; have hm5 := f5.sync; have hd5 := f5.ok.mid
    have ok5 := f5.ok
    have hh3 := f3.ok.high; have hh4 := f4.ok.high; have hh5 := ok5.high
    have hf5 : v5.pub[v5.popped]? = some a := by
      rw [show v5.popped = v3.popped by omega, (f4.trans f5).get (by omega)]; exact hf
    have hz5 : v5.pub[j - 1]? = some z := by rw [f5.get (by omega)]; exact hz
    have hbd : ∀ w, Fut n arr v5 w → bounds T (stored w.pub w.popped j) = some (T.ts a, T.ts z) := by
      intro w fw
      rw [fw.pop, stored_prefix fw.pre _ _ (by omega)]
      exact bounds_stored (by omega) (by omega) hf5 hz5
    have hseen : ∀ w, Fut n arr v5 w → v.seen ≤ j ∧ j ≤ w.seen := by
      intro w fw
      have := fw.sync; have := f1.mono; have := fw.ok.mid; have := f2.mono
      omega
    show wp T k n hw arr (if T.ts a ≤ dr.wBegin ∧ dr.wEnd ≤ T.ts z then _ else _) v5 _
    by_cases c1 : T.ts a ≤ dr.wBegin ∧ dr.wEnd ≤ T.ts z
    · rw [if_pos c1]
      intro v6 b f6 htold
      have hp6 := f6.pop; have hm6 := f6.sync; have hd6 := f6.ok.mid; have hh6 := f6.ok.high
      have hf6 : v6.pub[v6.popped]? = some a := by rw [hp6, f6.get (by omega)]; exact hf5
      have hz6 : v6.pub[j - 1]? = some z := by rw [f6.get (by omega)]; exact hz5
      by_cases hinv : T.ts z < dr.wBegin
      · have hlook : wp T k n hw arr (lookup T k n b dr.wBegin) v6 fun v' i => (k ≠ .binary ∧ i = endIdx) ∨ ∃ m, j - 1 ≤ m ∧
            m < v6.popped + n ∧ i = m % n ∧ (m < v'.sync ∨ hw.good = .acquire ∨ hw.strong = true) := by
          have hbin : wp T k n hw arr (lowerBound n T.ts dr.wBegin) v6 fun v' i => (k ≠ .binary ∧ i = endIdx) ∨
              ∃ m, j - 1 ≤ m ∧ m < v6.popped + n ∧ i = m % n ∧ (m < v'.sync ∨ hw.good = .acquire ∨ hw.strong = true) := by
            refine wp_conseq T k n hw arr (lowerBound_late hn ha v6 f6.ok j dr.wBegin (by omega) (by omega) a z
              hf6 hz6 c1.1 hinv) ?_
            rintro v7 i f7 ⟨m, d0, d1, d2, rfl⟩
            exact .inr ⟨m, d0, d1, rfl, .inl d2⟩
          cases k with
          | binary => exact hbin
          | fixed nf =>
            cases b with
            | true => exact hbin
            | false =>
              have hstr : hw.good = .acquire ∨ hw.strong = true := by
                rcases hwin with h | h | h
                · cases h
                · omega
                · exact h
              refine wp_conseq T _ n hw arr (fixed_late hn hs nf ha v6 f6.ok j dr.wBegin (by omega) (by omega) a z
                hf6 hz6 c1.1 hinv (told_stored htold rfl)) ?_
              rintro v7 i f7 (rfl | ⟨m, d0, d1, rfl⟩)
              · exact .inl ⟨by simp, rfl⟩
              · exact .inr ⟨m, d0, d1, rfl, .inr hstr⟩
        refine wp_seq T _ n hw arr f6.ok hlook ?_
        rintro v7 i f7 (⟨hk, rfl⟩ | ⟨m, d0, d1, rfl, d2⟩)
        · rw [if_pos rfl]
          intro v8 b f8
          cases b with
          | true =>
            intro v9 f9
            have f59 := ((f6.trans f7).trans f8).trans f9
            exact ⟨j, (hseen v9 f59).1, (hseen v9 f59).2, hfresh, .inr ⟨hk, by omega, .inl rfl⟩⟩
          | false =>
            intro v9 f9
            have f59 := ((f6.trans f7).trans f8).trans f9
            exact ⟨j, (hseen v9 f59).1, (hseen v9 f59).2, hfresh, .inr ⟨hk, by omega, .inr rfl⟩⟩
        have hp7 := f7.pop; have hm7 := f7.sync; have hd7 := f7.ok.mid; have hh7 := f7.ok.high
        have hml := Nat.mod_lt m (show 0 < n by omega)
        rw [if_neg (by simp [endIdx]; omega)]
        refine wp_seq T _ n hw arr f7.ok (extract_none hn hs ha j dr.wBegin dr.wEnd z n m v7 f7.ok (by omega) d0 (by omega) d2
          (by omega) (by rw [f7.get (by omega)]; exact hz6) c1.2) ?_
        rintro v8 _ f8 rfl
        intro v9 f9
        have f59 := ((f6.trans f7).trans f8).trans f9
        refine ⟨j, (hseen v9 f59).1, (hseen v9 f59).2, hfresh, .inl ⟨false, ?_⟩⟩
        rw [hbd v9 f59]
        simp only [classify, countersAfter, show ¬ dr.wBegin < T.ts a by omega, if_false, c1.2, if_true, true_and]
        refine ⟨rfl, ?_⟩
        have : ∀ l, wanted T l dr.wBegin dr.wEnd = [] := by
          intro l
          unfold wanted
          rw [List.filter_eq_nil_iff]
          intro f _ hf
          simp at hf
          omega
        rw [this]
      refine wp_seq T k n hw arr f6.ok (lookup_spec hn hs ha b v6 f6.ok j dr.wBegin (by omega) (by omega) a z
        hf6 hz6 c1.1 (by omega) (told_stored htold)) ?_
      rintro v7 _ f7 ⟨m, d1, d2, rfl, hcov⟩
      have hp7 := f7.pop; have hm7 := f7.sync; have hd7 := f7.ok.mid; have hh7 := f7.ok.high
      have hml := Nat.mod_lt m (show 0 < n by omega)
      rw [if_neg (by simp [endIdx]; omega)]
      have hr7 := f7.ok.room
      refine wp_seq T k n hw arr f7.ok (extract_spec hn hs j dr.wBegin dr.wEnd z (n + 1) m v7 f7.ok (by omega) d2
        (by omega) (by rw [f7.get (by omega)]; exact hz6) c1.2 (by omega)) ?_
      rintro v8 _ f8 rfl
      intro v9 f9
      have f79 := f8.trans f9
      have f59 := (f6.trans f7).trans f79
      refine ⟨j, (hseen v9 f59).1, (hseen v9 f59).2, hfresh, .inl ⟨false, ?_⟩⟩
      obtain ⟨hwf, hi⟩ := ha.wf _ f7.ok.arr
      have hst7 : stored v7.pub v7.popped j = stored v6.pub v6.popped j := by
        rw [hp7, stored_prefix f7.pre _ _ (by omega)]
      have hst9 : stored v9.pub v9.popped j = stored v7.pub v7.popped j := by
        rw [f79.pop, stored_prefix f79.pre _ _ (by omega)]
      rw [hbd v9 f59]
      simp only [classify, countersAfter, show ¬ dr.wBegin < T.ts a by omega, if_false, c1.2, if_true, true_and]
      refine ⟨rfl, ?_⟩
      rw [extractSkip_eq T _ _ _ (wf_drop (wf_stored hwf _ _) _) (inc_drop (inc_stored hi _ _) _), hst9]
      rw [wanted_drop T _ (wf_stored hwf _ _) (inc_stored hi _ _)]
      rw [hst7, hp7]
      exact hcov
    · rw [if_neg c1]
      by_cases c2 : T.ts a > dr.wBegin
      · rw [if_pos c2]
        intro v6 f6
        refine ⟨j, (hseen v6 f6).1, (hseen v6 f6).2, hfresh, .inl ⟨false, ?_⟩⟩
        rw [hbd v6 f6]
        simp [classify, countersAfter, show dr.wBegin < T.ts a from c2, createEmpty, noCount]
      · rw [if_neg c2, if_pos (by omega)]
        intro v6 b f6
        have e1 : ¬ dr.wBegin < T.ts a := c2
        have e2 : ¬ dr.wEnd ≤ T.ts z := fun h => c1 ⟨by omega, h⟩
        cases b with
        | true =>
          intro v7 f7
          refine ⟨j, (hseen v7 (f6.trans f7)).1, (hseen v7 (f6.trans f7)).2, hfresh, .inl ⟨true, ?_⟩⟩
          rw [hbd v7 (f6.trans f7)]
          simp [classify, countersAfter, e1, e2, noCount]
        | false =>
          intro v7 f7
          refine ⟨j, (hseen v7 (f6.trans f7)).1, (hseen v7 (f6.trans f7)).2, hfresh, .inl ⟨false, ?_⟩⟩
          rw [hbd v7 (f6.trans f7)]
          simp [classify, countersAfter, e1, e2, noCount, createEmpty]

/-! ### All threads -/

/-- Requests for which the loads of the code suffice: any with the binary lookup, if `good()` loads with order
acquire or if relaxed loads synchronise, else those
whose window does not end before it begins. -/
def Admitted (k : Lookup) (hw : Hw) : Prop :=
  ∀ dr, hw.made dr → k = .binary ∨ dr.wBegin ≤ dr.wEnd ∨ hw.good = .acquire ∨ hw.strong = true

/-- What is to be shown of an answered request, given everything published. -/
def Good (T : PayloadType P) (k : Lookup) (geo : GeoId) (ft : Nat) (fresh : Bool) (pub : List P) (d : Done P) : Prop :=
  ∃ j, d.from_ ≤ j ∧ j ≤ d.last ∧ (fresh = true → d.len ≤ j) ∧ Reply T k geo ft (stored pub d.first j) d.dr d.result

/-- The invariant of the system. -/
structure Inv (T : PayloadType P) (k : Lookup) (geo : GeoId) (ft n : Nat) (hw : Hw) (arr : List P → Prop)
    (s : Sys P) : Prop where
  bad : s.bad = false
  ok : (⟨s.pub, s.popped, s.view, s.view⟩ : View P).Ok n arr
  task : ∀ t x, s.tasks t = some x → (⟨s.pub, s.popped, x.seen, x.sync⟩ : View P).Ok n arr ∧
    wp T k n hw arr x.prog ⟨s.pub, s.popped, x.seen, x.sync⟩ fun v r => ∃ j, x.from_ ≤ j ∧ j ≤ v.seen ∧
      (hw.fresh = true → x.len ≤ j) ∧ Reply T k geo ft (stored v.pub v.popped j) x.dr r
  done : ∀ d ∈ s.done, d.last ≤ s.pub.length ∧ Good T k geo ft hw.fresh s.pub d

theorem setTask_some {f : Nat → Option (Task P)} {t u : Nat} {y : Option (Task P)} {x : Task P}
    (h : setTask f t y u = some x) : (u = t ∧ y = some x) ∨ f u = some x := by
  unfold setTask at h
  split at h
  · exact .inl ⟨by assumption, h⟩
  · exact .inr h

theorem Inv.put {geo : GeoId} {ft : Nat} {s : Sys P} (h : Inv T k geo ft n hw arr s) (t : Nat) (x : Task P)
    (hx : (⟨s.pub, s.popped, x.seen, x.sync⟩ : View P).Ok n arr ∧
      wp T k n hw arr x.prog ⟨s.pub, s.popped, x.seen, x.sync⟩ fun v r => ∃ j, x.from_ ≤ j ∧ j ≤ v.seen ∧
        (hw.fresh = true → x.len ≤ j) ∧ Reply T k geo ft (stored v.pub v.popped j) x.dr r) :
    Inv T k geo ft n hw arr (s.put t x) where
  bad := h.bad
  ok := h.ok
  done := h.done
  task := by
    intro u y hu
    rcases setTask_some hu with ⟨-, e⟩ | e
    · injection e with e; subst e; exact hx
    · exact h.task u y e

theorem inv_step (geo : GeoId) (ft : Nat) (hn : 2 ≤ n) (hs : n < 2147483648) (ha : ArrOk T k n arr)
    (hst : hw.back = .acquire ∨ hw.strong = true) (hreq : Admitted k hw) {s s' : Sys P} (h : Inv T k geo ft n hw arr s)
    (st : Step T k geo ft n hw arr s s') : Inv T k geo ft n hw arr s' := by
  have hlow : s.popped ≤ s.view := h.ok.low
  have hhigh : s.view ≤ s.pub.length := h.ok.high
  have hroom : s.pub.length < s.popped + n := h.ok.room
  cases st with
  | publish p harr hc =>
    have hpre : s.pub <+: s.pub ++ [p] := List.prefix_append _ _
    refine ⟨h.bad, ⟨harr, by simpa using hc, hlow, Nat.le_refl _, by simp; omega⟩, ?_, ?_⟩
    · intro t x hx
      obtain ⟨h2, h3⟩ := h.task t x hx
      have h2h : x.seen ≤ s.pub.length := h2.high
      have f : Fut n arr (⟨s.pub, s.popped, x.seen, x.sync⟩ : View P) ⟨s.pub ++ [p], s.popped, x.seen, x.sync⟩ :=
        ⟨rfl, hpre, Nat.le_refl _, Nat.le_refl _, ⟨harr, by simpa using hc, h2.low, h2.mid, by simp; omega⟩⟩
      exact ⟨f.ok, wp_fut T k n hw arr h2 h3 f⟩
    · intro d hd
      obtain ⟨h1, j, h2, h3, h4, h5⟩ := h.done d hd
      refine ⟨by simp; omega, j, h2, h3, h4, ?_⟩
      rw [stored_prefix hpre _ _ (by omega)]
      exact h5
  | cleanup j m hnone h1 h2 h3 h4 =>
    refine ⟨h.bad, ⟨h.ok.arr, ?_, h4, Nat.le_refl _, h2⟩, ?_, h.done⟩
    · show s.pub.length < m + n; omega
    · intro t x hx
      rw [hnone t] at hx; simp at hx
  | enter t dr hnone hr =>
    exact h.put t _ ⟨h.ok, request_spec geo ft hn hs ha hst dr (hreq dr hr) _ h.ok⟩
  | loadW t x o f j hx hp h1 h2 h3 =>
    obtain ⟨g2, g3⟩ := h.task t x hx
    rw [hp] at g3
    have hxl : s.popped ≤ x.sync := g2.low
    have hxm : x.sync ≤ x.seen := g2.mid
    generalize hy : (if o = .acquire ∨ hw.strong = true then max x.sync j else x.sync) = y
    have hy1 : x.sync ≤ y ∧ y ≤ j ∧ (o = .acquire ∨ hw.strong = true → y = j) := by
      rw [← hy]
      split
      · exact ⟨by omega, by omega, fun _ => by omega⟩
      · exact ⟨by omega, by omega, fun hc => absurd hc (by assumption)⟩
    have hf : Fut n arr (⟨s.pub, s.popped, x.seen, x.sync⟩ : View P) ⟨s.pub, s.popped, j, y⟩ :=
      ⟨rfl, List.prefix_refl _, h1, hy1.1, ⟨g2.arr, g2.room, by show s.popped ≤ y; omega, hy1.2.1, h2⟩⟩
    exact h.put t _ ⟨hf.ok, g3 _ hf h3 hy1.2.2⟩
  | loadR t x f hx hp =>
    obtain ⟨g2, g3⟩ := h.task t x hx
    rw [hp] at g3
    exact h.put t _ ⟨g2, g3 _ (Fut.refl g2)⟩
  | elem t x i f p hx hp hi hsy he =>
    obtain ⟨g2, g3⟩ := h.task t x hx
    rw [hp] at g3
    exact h.put t _ ⟨g2, g3.2 _ p (Fut.refl g2) he⟩
  | race t x i f hx hp hbad =>
    obtain ⟨g2, g3⟩ := h.task t x hx
    rw [hp] at g3
    exact absurd g3.1 hbad
  | err t x f b hx hp hb =>
    obtain ⟨g2, g3⟩ := h.task t x hx
    rw [hp] at g3
    exact h.put t _ ⟨g2, g3 _ b (Fut.refl g2) hb⟩
  | marker t x f b hx hp =>
    obtain ⟨g2, g3⟩ := h.task t x hx
    rw [hp] at g3
    exact h.put t _ ⟨g2, g3 _ b (Fut.refl g2)⟩
  | fail t x hx hp =>
    obtain ⟨g2, g3⟩ := h.task t x hx
    rw [hp] at g3
    exact g3.elim
  | leave t x r hx hp =>
    obtain ⟨g2, g3⟩ := h.task t x hx
    rw [hp] at g3
    have hxh : x.seen ≤ s.pub.length := g2.high
    have hxm : x.sync ≤ x.seen := g2.mid
    refine ⟨h.bad, ⟨h.ok.arr, h.ok.room, ?_, Nat.le_refl _, ?_⟩, ?_, ?_⟩
    · show s.popped ≤ max s.view x.sync; omega
    · show max s.view x.sync ≤ s.pub.length; omega
    · intro u y hu
      rcases setTask_some hu with ⟨-, e⟩ | e
      · simp at e
      · exact h.task u y e
    · intro d hd
      rcases List.mem_append.1 hd with hd | hd
      · exact h.done d hd
      · simp only [List.mem_singleton] at hd
        subst hd
        obtain ⟨j, e1, e2, e3, e4⟩ := g3 _ (Fut.refl g2)
        exact ⟨Nat.le_refl _, j, e1, Nat.le_trans e2 hxh, e3, e4⟩

theorem inv_reach (geo : GeoId) (ft : Nat) (hn : 2 ≤ n) (hs : n < 2147483648) (ha : ArrOk T k n arr)
    (hst : hw.back = .acquire ∨ hw.strong = true) (hreq : Admitted k hw) {s : Sys P} (h : Reach T k geo ft n hw arr s) : Inv T k geo ft n hw arr s := by
  induction h with
  | init =>
    refine ⟨rfl, ⟨ha.start, by show 0 < 0 + n; omega, Nat.le_refl _, Nat.le_refl _, Nat.le_refl _⟩, ?_, ?_⟩
    · intro t x hx; simp [Sys.init] at hx
    · intro d hd; simp [Sys.init] at hd
  | step _ st ih => exact inv_step geo ft hn hs ha hst hreq ih st

/-- **C91 (partial)** Any number of requests run while payloads arrive and cleanups take place, on a ring buffer with
binary or fixed-rate lookup. If the load of the write index in `back()` has order acquire, or the hardware lets relaxed
loads synchronise (the code has neither of its own, see the counterexample), then in every execution nothing undefined happens, and every answer is the answer for what was stored
at one moment: with `j` payloads published, where `j` is not before what the mutex passed on when the request began
(if loads return the newest value: not before all that was published then) and not after the end of the request.
The code, the counters and the fragment are the specified ones for these contents. With the fixed-rate lookup, requests whose
window ends before it begins are admitted if `good()` loads with order acquire or relaxed loads synchronise; they may also be put off (`Reply`). -/
theorem C91_requests_while_data_arrives_partial (T : PayloadType P) (k : Lookup) (geo : GeoId) (ft n : Nat)
    (hn : 2 ≤ n) (hs : n < 2147483648) (arr : List P → Prop) (ha : ArrOk T k n arr) (hw : Hw)
    (hst : hw.back = .acquire ∨ hw.strong = true) (hreq : Admitted k hw)
    (s : Sys P) (h : Reach T k geo ft n hw arr s) :
    s.bad = false ∧ ∀ d ∈ s.done, ∃ j, d.from_ ≤ j ∧ j ≤ d.last ∧ (hw.fresh = true → d.len ≤ j) ∧
      Reply T k geo ft ((s.pub.take j).drop d.first) d.dr d.result := by
  have hi := inv_reach geo ft hn hs ha hst hreq h
  exact ⟨hi.bad, fun d hd => (hi.done d hd).2⟩

/-- What `Reply` allows beyond `Answer` needs the fixed-rate lookup and a window that ends before it begins. -/
theorem reply_answer {geo : GeoId} {ft : Nat} {l : List P} {dr : Request} {r : Result P} (h : Reply T k geo ft l dr r)
    (hk : k = .binary ∨ dr.wBegin ≤ dr.wEnd) : Answer T geo ft l dr r := by
  rcases h with h | ⟨h1, h2, -⟩
  · exact h
  · rcases hk with hk | hk
    · exact absurd hk h1
    · omega

theorem reply_found {geo : GeoId} {ft : Nat} {l : List P} {dr : Request} {r : Result P} (h : Reply T k geo ft l dr r)
    (hc : r.code = .found) : Answer T geo ft l dr r := by
  rcases h with h | ⟨-, -, rfl | rfl⟩
  · exact h
  · cases hc
  · cases hc

/-- A found answer says where the window lies in what was stored. -/
theorem found_bounds {geo : GeoId} {ft : Nat} {l : List P} {dr : Request} {r : Result P} (h : Answer T geo ft l dr r)
    (hc : r.code = .found) : ∃ a z, l[0]? = some a ∧ l.getLast? = some z ∧ T.ts a ≤ dr.wBegin ∧ dr.wEnd ≤ T.ts z ∧
      r.fragment = some ⟨createHeader geo ft dr, wanted T l dr.wBegin dr.wEnd⟩ := by
  obtain ⟨b, h1, -, h3⟩ := h
  rw [hc] at h1 h3
  unfold bounds at h1
  cases ha : l.head? with
  | none => simp [ha, classify] at h1
  | some a =>
    cases hz : l.getLast? with
    | none => simp [ha, hz, classify] at h1
    | some z =>
      simp only [ha, hz, classify] at h1
      refine ⟨a, z, by rw [← List.head?_eq_getElem?]; exact ha, rfl, ?_⟩
      by_cases c1 : dr.wBegin < T.ts a
      · simp [c1] at h1
      · by_cases c2 : dr.wEnd ≤ T.ts z
        · exact ⟨by omega, c2, h3⟩
        · cases b <;> simp [c1, c2] at h1

/-- **C91 (partial)** Under the same conditions a fragment that is given out as found holds exactly the frames of its
window among everything received before, during and after the request. -/
theorem C91_found_is_complete_partial (T : PayloadType P) (k : Lookup) (geo : GeoId) (ft n : Nat)
    (hn : 2 ≤ n) (hs : n < 2147483648) (arr : List P → Prop) (ha : ArrOk T k n arr) (hw : Hw)
    (hst : hw.back = .acquire ∨ hw.strong = true) (hreq : Admitted k hw)
    (s : Sys P) (h : Reach T k geo ft n hw arr s) (d : Done P) (hd : d ∈ s.done) (hc : d.result.code = .found) :
    d.result.fragment = some ⟨createHeader geo ft d.dr, wanted T s.pub d.dr.wBegin d.dr.wEnd⟩ := by
  have hi := inv_reach geo ft hn hs ha hst hreq h
  obtain ⟨hl, j, h1, h2, -, h4⟩ := hi.done d hd
  obtain ⟨a, z, e0, ez, g1, g2, g3⟩ := found_bounds (reply_found h4 hc) hc
  obtain ⟨hwf, hinc⟩ := ha.wf _ hi.ok.arr
  have hfj : d.first ≤ j := by
    rcases Nat.lt_or_ge j d.first with hlt | hge
    · rw [stored_get] at e0; rw [if_neg (by omega)] at e0; simp at e0
    · exact hge
  have e : s.pub = s.pub.take d.first ++ stored s.pub d.first j ++ s.pub.drop j := by
    conv => lhs; rw [← List.take_append_drop j s.pub, ← List.take_append_drop d.first (s.pub.take j)]
    rw [List.take_take, Nat.min_eq_left hfj, stored]
  rw [g3]
  have := wanted_extend T (s.pub.take d.first) (stored s.pub d.first j) (s.pub.drop j) (by rw [← e]; exact hwf)
    (by rw [← e]; exact hinc) a z e0 ez d.dr.wBegin d.dr.wEnd g1 g2
  rw [← e] at this
  rw [this]

/-- **C91 (partial)** Under the same conditions, and if loads return the newest value: when all of the window had arrived
before the request began, and its begin has not been cleaned up, the request is answered as found. -/
theorem C91_present_data_is_found_partial (T : PayloadType P) (k : Lookup) (geo : GeoId) (ft n : Nat)
    (hn : 2 ≤ n) (hs : n < 2147483648) (arr : List P → Prop) (ha : ArrOk T k n arr) (hw : Hw)
    (hst : hw.back = .acquire ∨ hw.strong = true) (hreq : Admitted k hw)
    (hfr : hw.fresh = true) (s : Sys P) (h : Reach T k geo ft n hw arr s) (d : Done P) (hd : d ∈ s.done)
    (a z : P) (i : Nat) (h0 : s.pub[d.first]? = some a) (h1 : T.ts a ≤ d.dr.wBegin) (hi : i < d.len)
    (hfi : d.first ≤ i) (hz : s.pub[i]? = some z) (h2 : d.dr.wEnd ≤ T.ts z) (hk : k = .binary ∨ d.dr.wBegin ≤ d.dr.wEnd) :
    d.result.code = .found := by
  have hinv := inv_reach geo ft hn hs ha hst hreq h
  obtain ⟨hl, j, -, h4, h5, hrep⟩ := hinv.done d hd
  obtain ⟨b, h6, -⟩ := reply_answer hrep hk
  have h5 := h5 hfr
  obtain ⟨hwf, hinc⟩ := ha.wf _ hinv.ok.arr
  obtain ⟨y, hy⟩ : ∃ y, s.pub[j - 1]? = some y := ⟨_, List.getElem?_eq_getElem (by omega)⟩
  have hzy : T.ts z ≤ T.ts y := by
    rcases Nat.lt_or_ge i (j - 1) with hlt | hge
    · exact Nat.le_of_lt (ts_lt hwf hinc hlt hz hy)
    · have : i = j - 1 := by omega
      subst this; rw [hz] at hy; injection hy with e; rw [e]; exact Nat.le_refl _
  rw [h6, bounds_stored (by omega) (by omega) h0 hy]
  simp only [classify]
  rw [if_neg (by omega), if_pos (by omega)]

end

/-! ### Concrete executions -/

/-- One step of thread `t`, loads returning the newest value. -/
def stepTask (n : Nat) (hw : Hw) (b : Bool) (s : Sys P) (t : Nat) : Option (Sys P) :=
  match s.tasks t with
  | none => none
  | some x =>
    match x.prog with
    | .ret r => some { s with
        tasks := setTask s.tasks t none, view := max s.view x.sync,
        done := s.done ++ [⟨r, x.dr, x.from_, x.len, s.popped, s.pub.length⟩] }
    | .fail => none
    | .loadW o f =>
      if x.seen ≤ s.pub.length then
        some (s.put t { x with
          prog := f (s.pub.length % n), seen := s.pub.length,
          sync := if o = .acquire ∨ hw.strong = true then max x.sync s.pub.length else x.sync })
      else none
    | .loadR f => some (s.put t { x with prog := f (s.popped % n) })
    | .elem i f =>
      if i < n ∧ number n s.popped i < x.sync then
        match s.pub[number n s.popped i]? with
        | none => none
        | some p => some (s.put t { x with prog := f p })
      else some { s with bad := true }
    | .err f => some (s.put t { x with prog := f b })
    | .marker f => some (s.put t { x with prog := f b })

theorem stepTask_sound {T : PayloadType P} {k : Lookup} {geo : GeoId} {ft n : Nat} {hw : Hw} {arr : List P → Prop} {b : Bool}
    {s s' : Sys P} {t : Nat} (h : stepTask n hw b s t = some s') (hb : Told T k (s.pub.drop s.popped) b) :
    Step T k geo ft n hw arr s s' := by
  unfold stepTask at h
  split at h
  · simp at h
  · rename_i x hx
    split at h <;> rename_i hp
    · injection h with h; subst h; exact .leave s t x _ hx hp
    · simp at h
    · split at h
      · injection h with h; subst h
        exact .loadW s t x _ _ _ hx hp (by assumption) (Nat.le_refl _) (fun _ => rfl)
      · simp at h
    · injection h with h; subst h; exact .loadR s t x _ hx hp
    · split at h
      · rename_i hc
        split at h
        · simp at h
        · rename_i p he
          injection h with h; subst h
          exact .elem s t x _ _ p hx hp hc.1 hc.2 he
      · injection h with h; subst h
        exact .race s t x _ _ hx hp (by assumption)
    · injection h with h; subst h; exact .err s t x _ b hx hp hb
    · injection h with h; subst h; exact .marker s t x _ b hx hp

theorem stepTask_buffer {n : Nat} {hw : Hw} {b : Bool} {s s' : Sys P} {t : Nat} (h : stepTask n hw b s t = some s') :
    s'.pub = s.pub ∧ s'.popped = s.popped := by
  unfold stepTask at h
  repeat' split at h
  all_goals first
    | (injection h with h; subst h; exact ⟨rfl, rfl⟩)
    | (simp at h; done)

/-- Steps of thread `t`, at most `m`. -/
def steps (n : Nat) (hw : Hw) (b : Bool) (t : Nat) : Nat → Sys P → Sys P
  | 0, s => s
  | m + 1, s =>
    match stepTask n hw b s t with
    | some s' => steps n hw b t m s'
    | none => s

theorem steps_reach {T : PayloadType P} {k : Lookup} {geo : GeoId} {ft n : Nat} {hw : Hw} {arr : List P → Prop} {b : Bool}
    {t m : Nat} {s : Sys P} (h : Reach T k geo ft n hw arr s) (hb : Told T k (s.pub.drop s.popped) b) :
    Reach T k geo ft n hw arr (steps n hw b t m s) := by
  induction m generalizing s with
  | zero => exact h
  | succ m ih =>
    unfold steps
    split
    · rename_i s' hs
      obtain ⟨e1, e2⟩ := stepTask_buffer hs
      exact ih (.step h (stepTask_sound hs hb)) (by rw [e1, e2]; exact hb)
    · exact h

/-- Payloads of twelve frames that do not overlap, with times far from the end of the clock. -/
def wibs (l : List Nat) : Prop := Increasing wibLike l ∧ ∀ a ∈ l, a < 1000000

theorem wibs_ok (k : Lookup) (hk : k = .binary ∨ k = .fixed 12) : ArrOk wibLike k 4 wibs where
  start := ⟨List.Pairwise.nil, by simp⟩
  wf := fun l h => ⟨fun p _ => ⟨by simp [wibLike], fun i _ => rfl⟩, h.1⟩
  fixed := by
    rintro nf rfl
    rcases hk with hk | hk
    · cases hk
    · injection hk with hk
      subst hk
      refine ⟨by decide, by decide, fun l hl a ha => ?_⟩
      have := hl.2 a ha
      simp only [wibLike, id]
      omega

/-- Request for the frames with 1100 ≤ time < 1300. -/
def ask : Request := ⟨1, 1200, 1100, 1300, 1, 0⟩

/-- Payloads 1000 and 1300 are stored and a request begins. -/
def opening (k : Lookup) (q : Request) (hw : Hw) : Sys Nat :=
  ⟨[1000, 1300], 0, 0, setTask (fun _ => none) 0
    (some ⟨dataRequest wibLike k ⟨0, 0, 0⟩ 1 4 hw.back hw.good q, 0, 0, q, 0, 2⟩), [], false⟩

/-- After `m` of its steps payload 1600 arrives, and the request ends. Answers of the registry and the marker: `b`. -/
def scene (k : Lookup) (b : Bool) (q : Request) (hw : Hw) (m : Nat) : Sys Nat :=
  let s := steps 4 hw b 0 m (opening k q hw)
  steps 4 hw b 0 60 { s with pub := s.pub ++ [1600] }

theorem steps_buffer {n : Nat} {hw : Hw} {b : Bool} {t m : Nat} {s : Sys P} :
    (steps n hw b t m s).pub = s.pub ∧ (steps n hw b t m s).popped = s.popped := by
  induction m generalizing s with
  | zero => exact ⟨rfl, rfl⟩
  | succ m ih =>
    unfold steps
    split
    · rename_i s' hs
      obtain ⟨e1, e2⟩ := stepTask_buffer hs
      obtain ⟨e3, e4⟩ := ih (s := s')
      exact ⟨e3.trans e1, e4.trans e2⟩
    · exact ⟨rfl, rfl⟩

theorem scene_reach (k : Lookup) (b : Bool) (q : Request) (hw : Hw) (m : Nat) (hq : hw.made q)
    (h1 : Told wibLike k [1000, 1300] b) (h2 : Told wibLike k [1000, 1300, 1600] b) :
    Reach wibLike k ⟨0, 0, 0⟩ 1 4 hw wibs (scene k b q hw m) := by
  unfold scene
  have r0 : Reach wibLike k ⟨0, 0, 0⟩ 1 4 hw wibs (Sys.init Nat) := .init
  have r1 := Reach.step r0 (.publish _ 1000 (by unfold wibs Increasing; decide) (by decide))
  have r2 := Reach.step r1 (.publish _ 1300 (by unfold wibs Increasing; decide) (by decide))
  have r3 : Reach wibLike k ⟨0, 0, 0⟩ 1 4 hw wibs (opening k q hw) := Reach.step r2 (.enter _ 0 q rfl hq)
  have r4 := steps_reach (b := b) (t := 0) (m := m) r3 h1
  obtain ⟨e1, e2⟩ := steps_buffer (n := 4) (hw := hw) (b := b) (t := 0) (m := m) (s := opening k q hw)
  have e1 : (steps 4 hw b 0 m (opening k q hw)).pub = [1000, 1300] := e1
  have e2 : (steps 4 hw b 0 m (opening k q hw)).popped = 0 := e2
  refine steps_reach (.step r4 (.publish _ 1600 ?_ ?_)) ?_
  · rw [e1]; unfold wibs Increasing; decide
  · rw [e1, e2]; decide
  · simp only [e1, e2]; exact h2

/-- Non-vacuity for C91: the payload arrives between the two calls that ask for the oldest and the newest payload; the
request is answered as found with the eight frames of the window. -/
example : ArrOk wibLike .binary 4 wibs ∧ Admitted .binary ⟨false, true, .acquire, .relaxed, anyRequest⟩ ∧
    Reach wibLike .binary ⟨0, 0, 0⟩ 1 4 ⟨false, true, .acquire, .relaxed, anyRequest⟩ wibs
      (scene .binary true ask ⟨false, true, .acquire, .relaxed, anyRequest⟩ 4) ∧
    (scene .binary true ask ⟨false, true, .acquire, .relaxed, anyRequest⟩ 4).pub = [1000, 1300, 1600] ∧
    (scene .binary true ask ⟨false, true, .acquire, .relaxed, anyRequest⟩ 4).done.map
      (fun d => (d.result.code, d.result.fragment.map fun f => f.frames)) =
      [(.found, some ((List.range 8).map fun i => (1000, i + 4)))] :=
  ⟨wibs_ok _ (.inl rfl), fun _ _ => .inl rfl, scene_reach _ _ _ _ _ trivial trivial trivial, by decide +kernel, by decide +kernel⟩

/-- A window that ends at 1200 before it begins at 1500, while the payload that covers its begin arrives: found, without frames. -/
example : (scene .binary true ⟨1, 1200, 1500, 1200, 1, 0⟩ ⟨false, true, .acquire, .relaxed, anyRequest⟩ 12).done.map
      (fun d => (d.result.code, d.result.fragment.map fun f => f.frames)) = [(.found, some [])] := by decide +kernel

/-- The answer of the registry that there is no gap is possible: the payloads follow each other. -/
theorem no_gap : Told wibLike (.fixed 12) [1000, 1300] false ∧ Told wibLike (.fixed 12) [1000, 1300, 1600] false := by
  constructor <;> (intro _ k a b h1 h2; rcases k with _ | _ | _ | k <;> simp_all [wibLike] <;> omega)

/-- Fixed-rate lookup, hardware that synchronises, a window that ends at 1200 and begins at 1900, later than all that is stored:
the request is put off or refused, not answered as found. -/
example : ArrOk wibLike (.fixed 12) 4 wibs ∧ Admitted (.fixed 12) ⟨true, true, .relaxed, .relaxed, anyRequest⟩ ∧
    Reach wibLike (.fixed 12) ⟨0, 0, 0⟩ 1 4 ⟨true, true, .relaxed, .relaxed, anyRequest⟩ wibs
      (scene (.fixed 12) false ⟨1, 1200, 1900, 1200, 1, 0⟩ ⟨true, true, .relaxed, .relaxed, anyRequest⟩ 40) ∧
    (scene (.fixed 12) false ⟨1, 1200, 1900, 1200, 1, 0⟩ ⟨true, true, .relaxed, .relaxed, anyRequest⟩ 40).done.map
      (fun d => (d.result.code, d.result.counters)) = [(.notFound, ⟨0, 1, 0, 1, 0, 0⟩)] :=
  ⟨wibs_ok _ (.inr rfl), fun _ _ => .inr (.inr (.inr rfl)), scene_reach _ _ _ _ _ trivial no_gap.1 no_gap.2, by decide +kernel⟩

/-- **C91 is false as the code stands**: `back()` loads the write index with relaxed order, so it does not synchronise
with the write of the payload it returns. A payload that arrives between `front()` and `back()` is read although
nothing orders its construction before the read: a data race, even if every load returns the newest value. -/
theorem C91_newest_payload_race_counterexample :
    Reach wibLike .binary ⟨0, 0, 0⟩ 1 4 ⟨false, true, .relaxed, .relaxed, anyRequest⟩ wibs
      (scene .binary true ask ⟨false, true, .relaxed, .relaxed, anyRequest⟩ 4) ∧
    (scene .binary true ask ⟨false, true, .relaxed, .relaxed, anyRequest⟩ 4).bad = true :=
  ⟨scene_reach _ _ _ _ _ trivial trivial trivial, by decide +kernel⟩

/-- **C91, windows that end before they begin**: with the fixed-rate lookup they race even if `back()` loads with order
acquire. The lookup gives the slot after the newest payload, and `good()` loads the write index with relaxed order; the
payload that has just arrived there is read. -/
theorem C91_inverted_window_race_counterexample :
    Reach wibLike (.fixed 12) ⟨0, 0, 0⟩ 1 4 ⟨false, true, .acquire, .relaxed, anyRequest⟩ wibs
      (scene (.fixed 12) false ⟨1, 1200, 1600, 1200, 1, 0⟩ ⟨false, true, .acquire, .relaxed, anyRequest⟩ 12) ∧
    (scene (.fixed 12) false ⟨1, 1200, 1600, 1200, 1, 0⟩ ⟨false, true, .acquire, .relaxed, anyRequest⟩ 12).bad = true :=
  ⟨scene_reach _ _ _ _ _ trivial no_gap.1 no_gap.2, by decide +kernel⟩

/-- The same execution with the load in `good()` of order acquire: all requests are admitted, and this one is answered. -/
example : Admitted (.fixed 12) ⟨false, true, .acquire, .acquire, anyRequest⟩ ∧
    Reach wibLike (.fixed 12) ⟨0, 0, 0⟩ 1 4 ⟨false, true, .acquire, .acquire, anyRequest⟩ wibs
      (scene (.fixed 12) false ⟨1, 1200, 1600, 1200, 1, 0⟩ ⟨false, true, .acquire, .acquire, anyRequest⟩ 12) ∧
    (scene (.fixed 12) false ⟨1, 1200, 1600, 1200, 1, 0⟩ ⟨false, true, .acquire, .acquire, anyRequest⟩ 12).done.map
      (fun d => (d.result.code, d.result.fragment.map fun f => f.frames)) = [(.found, some [])] :=
  ⟨fun _ _ => .inr (.inr (.inl rfl)), scene_reach _ _ _ _ _ trivial no_gap.1 no_gap.2, by decide +kernel⟩

end Verif.ConcReq
