import Verif.DataReqModel
import Verif.SearchProps
/- Properties C11, C12 (data requests). -/
namespace Verif.DataReq
open Verif.Ring Verif.Search
variable {P : Type}

/-- All frames of the stored payloads in storage order. -/
def allFrames (T : PayloadType P) (l : List P) : List (P × Nat) :=
  l.flatMap (fun p => (List.range (T.nf p)).map (fun i => (p, i)))

/-- Timestamp of a frame. -/
def frameTs (T : PayloadType P) (f : P × Nat) : Nat := T.fts f.1 f.2

/-- Specification of a found fragment: the stored frames in the half-open window. -/
def wanted (T : PayloadType P) (l : List P) (b e : Nat) : List (P × Nat) :=
  (allFrames T l).filter (fun f => decide (b ≤ frameTs T f) && decide (frameTs T f < e))

/-- Payloads are well formed: at least one frame, frames one tick apart. -/
def WellFormed (T : PayloadType P) (l : List P) : Prop :=
  ∀ p ∈ l, 0 < T.nf p ∧ ∀ i, i < T.nf p → T.fts p i = T.ts p + i * T.tick

/-- Frames are stored in strictly increasing time order. -/
def Increasing (T : PayloadType P) (l : List P) : Prop :=
  (allFrames T l).Pairwise (fun f g => frameTs T f < frameTs T g)

theorem pieces_eq (T : PayloadType P) (b e : Nat) (p : P)
    (hw : 0 < T.nf p ∧ ∀ i, i < T.nf p → T.fts p i = T.ts p + i * T.tick) :
    payloadPieces T b e p =
      ((List.range (T.nf p)).map (fun i => (p, i))).filter
        (fun f => decide (b ≤ frameTs T f) && decide (frameTs T f < e)) := by
  unfold payloadPieces
  split
  · rw [List.filter_map]
    rfl
  · rename_i hc
    rw [not_or] at hc
    symm
    rw [List.filter_eq_self]
    intro f hf
    simp only [List.mem_map, List.mem_range] at hf
    obtain ⟨i, hi, rfl⟩ := hf
    simp only [frameTs, hw.2 i hi, Bool.and_eq_true, decide_eq_true_eq]
    have : i * T.tick ≤ (T.nf p - 1) * T.tick := Nat.mul_le_mul_right _ (by omega)
    omega

theorem mem_allFrames (T : PayloadType P) (l : List P) (f : P × Nat) :
    f ∈ allFrames T l ↔ f.1 ∈ l ∧ f.2 < T.nf f.1 := by
  obtain ⟨p, i⟩ := f
  simp only [allFrames, List.mem_flatMap, List.mem_map, List.mem_range, Prod.mk.injEq]
  constructor
  · rintro ⟨a, ha, j, hj, rfl, rfl⟩; exact ⟨ha, hj⟩
  · rintro ⟨h1, h2⟩; exact ⟨p, h1, i, h2, rfl, rfl⟩

theorem ts_eq_first (T : PayloadType P) {p : P}
    (hw : 0 < T.nf p ∧ ∀ i, i < T.nf p → T.fts p i = T.ts p + i * T.tick) :
    frameTs T (p, 0) = T.ts p := by
  simp [frameTs, hw.2 0 hw.1]

/-- Increasing frames imply increasing payload timestamps. -/
theorem increasing_pairwise (T : PayloadType P) (l : List P) (hw : WellFormed T l)
    (hi : Increasing T l) :
    l.Pairwise (fun p r => ∀ i, i < T.nf p → T.fts p i < T.ts r) := by
  induction l with
  | nil => exact List.Pairwise.nil
  | cons p l ih =>
    simp only [Increasing, allFrames, List.flatMap_cons] at hi
    rw [List.pairwise_append] at hi
    refine List.pairwise_cons.2 ⟨?_, ih (fun x hx => hw x (by simp [hx])) hi.2.1⟩
    intro r hr i hip
    have := hi.2.2 (p, i) (by simp [hip]) (r, 0)
      ((mem_allFrames T l (r, 0)).2 ⟨hr, (hw r (by simp [hr])).1⟩)
    rw [ts_eq_first T (hw r (by simp [hr]))] at this
    exact this

theorem increasing_sorted (T : PayloadType P) (l : List P) (hw : WellFormed T l)
    (hi : Increasing T l) : Sorted T.ts l := by
  have hp := increasing_pairwise T l hw hi
  intro i j a b hij ha hb
  rcases Nat.lt_or_ge i j with h | h
  · obtain ⟨h1, e1⟩ := List.getElem?_eq_some_iff.1 ha
    obtain ⟨h2, e2⟩ := List.getElem?_eq_some_iff.1 hb
    have := List.pairwise_iff_getElem.1 hp i j h1 h2 h 0
    rw [e1, e2] at this
    have hwa := hw a (List.mem_of_getElem? ha)
    have := this hwa.1
    rw [hwa.2 0 hwa.1] at this
    omega
  · have : i = j := by omega
    subst this
    rw [ha] at hb; injection hb with e; rw [e]
    exact Nat.le_refl _

/-- List version of the extraction loop. -/
theorem extract_list (T : PayloadType P) {q : Ring P} {l : List P} (h : Repr q l)
    (hs : q.size ≤ endIdx) (b e : Nat) (fuel k : Nat) (hf : l.length < fuel + k) :
    extract T q b e fuel (pos q l k) = .ok (extractSkip T b e (l.drop k)) ∨
      (fuel = 0) := by
  induction fuel generalizing k with
  | zero => exact Or.inr rfl
  | succ fuel ih =>
    left
    by_cases hk : k < l.length
    · have hg : q.good (pos q l k) = true := by
        have hlt := slotIdx_lt h.rdlt (show k < q.size by have := h.len; omega)
        simp only [pos, hk, if_true]
        exact (h.occupied hs _ hlt).2 ⟨k, hk, rfl⟩
      have hd := deref_pos h k l[k] (List.getElem?_eq_getElem hk)
      rw [List.drop_eq_getElem_cons hk]
      simp only [extract, hg, if_true, hd, Outcome.bind_ok, extractSkip]
      by_cases ht : T.ts l[k] < e
      · simp only [ht, if_true, inc_pos h hs]
        rcases ih (k + 1) (by omega) with e1 | e1
        · rw [e1]; rfl
        · omega
      · simp [ht]
    · have e1 : l.drop k = [] := by simp; omega
      have : pos q l k = endIdx := by simp [pos, hk]
      simp [extract, this, not_good_end, e1, extractSkip]

theorem extractSkip_eq (T : PayloadType P) (b e : Nat) (l : List P) (hw : WellFormed T l)
    (hi : Increasing T l) : extractSkip T b e l = wanted T l b e := by
  induction l with
  | nil => rfl
  | cons p l ih =>
    have hp := increasing_pairwise T (p :: l) hw hi
    have hi' : Increasing T l := by
      simp only [Increasing, allFrames, List.flatMap_cons] at hi
      exact (List.pairwise_append.1 hi).2.1
    have hw' : WellFormed T l := fun x hx => hw x (by simp [hx])
    have ih := ih hw' hi'
    simp only [extractSkip, wanted, allFrames, List.flatMap_cons, List.filter_append]
    split
    · rw [pieces_eq T b e p (hw p (by simp)), ih]; rfl
    · rename_i hc
      symm
      rw [← List.filter_append, List.filter_eq_nil_iff]
      intro f hf
      have hge : e ≤ frameTs T f := by
        rcases List.mem_append.1 hf with hf | hf
        · simp only [List.mem_map, List.mem_range] at hf
          obtain ⟨i, hi, rfl⟩ := hf
          simp only [frameTs, (hw p (by simp)).2 i hi]; omega
        · obtain ⟨h1, h2⟩ := (mem_allFrames T l f).1 hf
          have := (List.pairwise_cons.1 hp).1 f.1 h1 0 (hw p (by simp)).1
          rw [(hw p (by simp)).2 0 (hw p (by simp)).1] at this
          simp only [frameTs, (hw f.1 (by simp [h1])).2 f.2 h2]
          omega
      simp; intro _; exact hge

/-- Dropping payloads before the covering one loses no wanted frame. -/
theorem wanted_drop (T : PayloadType P) (l : List P) (hw : WellFormed T l) (hi : Increasing T l)
    (b e k : Nat) (hc : Covers T.ts l b k) : wanted T (l.drop k) b e = wanted T l b e := by
  conv => rhs; rw [← List.take_append_drop k l]
  simp only [wanted, allFrames, List.flatMap_append, List.filter_append]
  have : List.filter (fun f => decide (b ≤ frameTs T f) && decide (frameTs T f < e))
      ((l.take k).flatMap (fun p => (List.range (T.nf p)).map (fun i => (p, i)))) = [] := by
    rw [List.filter_eq_nil_iff]
    intro f hf
    obtain ⟨h1, h2⟩ := (mem_allFrames T (l.take k) f).1 hf
    obtain ⟨⟨a, ha, hle⟩, -⟩ := hc
    have hp := increasing_pairwise T l hw hi
    obtain ⟨i, hik, hfi⟩ := List.mem_take_iff_getElem.1 h1
    obtain ⟨hk, ek⟩ := List.getElem?_eq_some_iff.1 ha
    have := List.pairwise_iff_getElem.1 hp i k (by omega) hk (by omega)
    rw [hfi, ek] at this
    have := this f.2 h2
    intro hb
    rw [Bool.and_eq_true] at hb
    have hb1 : b ≤ frameTs T f := of_decide_eq_true hb.1
    simp only [frameTs] at hb1; omega
  rw [this, List.nil_append]

/-- The lookup used by the request handler is exact: binary search, or fixed rate with the
error flag or gap-free contents. -/
def LookupOk (T : PayloadType P) (k : Lookup) (l : List P) (hasErr : Bool) : Prop :=
  match k with
  | .binary => True
  | .fixed nf => 0 < T.tick ∧ 0 < nf ∧ (hasErr = false → GapFree T.ts (T.tick * nf) l) ∧
      ∀ a, l[0]? = some a → T.ts a + l.length * T.tick * nf < 18446744073709551616

theorem gapfree_last {key : P → Nat} {step : Nat} {l : List P} (h : GapFree key step l) {a z : P}
    (h0 : l[0]? = some a) (hz : l.getLast? = some z) : key z = key a + (l.length - 1) * step := by
  rw [List.getLast?_eq_getElem?] at hz
  exact h.at h0 _ _ hz

theorem lookup_found (T : PayloadType P) (k : Lookup) (q : Ring P) (l : List P) (h : Repr q l)
    (hs : q.size < 2147483648) (hsort : Sorted T.ts l) (hasErr : Bool)
    (hk : LookupOk T k l hasErr) (a z : P) (h0 : l[0]? = some a) (hz : l.getLast? = some z)
    (t : Nat) (h1 : T.ts a ≤ t) (h2 : k = .binary ∨ t ≤ T.ts z) :
    ∃ j, lookup T k q hasErr t = .ok (slotIdx q.size q.rd j) ∧ Covers T.ts l t j := by
  have hlen := h.len
  have hbin : ∃ j, lowerBound q T.ts t q.size = .ok (some (slotIdx q.size q.rd j)) ∧
      Covers T.ts l t j := by
    rcases C07_binary_search T.ts q l h hsort t q.size (by omega) with ⟨hb, -⟩ | ⟨-, j, e, hc⟩
    · exfalso
      rcases hb with rfl | ⟨b, hb, hlt⟩
      · simp at h0
      · rw [h0] at hb; injection hb with hb; subst hb; omega
    · exact ⟨j, e, hc⟩
  cases k with
  | binary =>
    obtain ⟨j, e, hc⟩ := hbin
    exact ⟨j, by simp [lookup, e], hc⟩
  | fixed nf =>
    obtain ⟨ht, hnf, hg, hov⟩ := hk
    cases hasErr with
    | true =>
      obtain ⟨j, e, hc⟩ := hbin
      exact ⟨j, by simp [lookup, fixedRateLowerBound, e], hc⟩
    | false =>
      have hgf := hg rfl
      have hlast := gapfree_last hgf h0 hz
      have hlt : t < T.ts a + l.length * (T.tick * nf) := by
        have hpos : 0 < T.tick * nf := Nat.mul_pos ht hnf
        have hl0 : 0 < l.length := getElem?_lt h0
        have : (l.length - 1) * (T.tick * nf) + (T.tick * nf) = l.length * (T.tick * nf) := by
          conv => rhs; rw [show l.length = (l.length - 1) + 1 by omega, Nat.add_mul, Nat.one_mul]
        rcases h2 with h2 | h2
        · simp at h2
        · omega
      obtain ⟨j, hc, e, -⟩ := (C08_fixed_rate_exact T.ts q l h T.tick nf ht hnf hs hgf a h0
        (hov a h0) t).1 h1 hlt
      exact ⟨j, by simp [lookup, fixedRateLowerBound, e], hc⟩

theorem front_deref {q : Ring P} {l : List P} (h : Repr q l) {a : P} (h0 : l[0]? = some a) :
    q.derefPtr q.front = .ok a := by
  cases l with
  | nil => simp at h0
  | cons b l =>
    simp at h0; subst h0
    have hne : q.rd ≠ q.wr := fun e => by simpa using h.rd_eq_wr.1 e
    simp [Ring.front, hne, Ring.derefPtr, load_rd h]

theorem back_deref {q : Ring P} {l : List P} (h : Repr q l) {z : P} (hz : l.getLast? = some z) :
    q.derefPtr q.back = .ok z := by
  rw [List.getLast?_eq_getElem?] at hz
  have hlive := h.live _ z hz
  have hne : l ≠ [] := by rintro rfl; simp at hz
  have hpos := List.length_pos_iff.2 hne
  have hne' : q.wr ≠ q.rd := fun e => hne (h.rd_eq_wr.1 e.symm)
  have h1 := h.wreq; have h2 := h.rdlt; have h3 := h.len
  have e : (if q.wr = 0 then q.size - 1 else q.wr - 1) = slotIdx q.size q.rd (l.length - 1) := by
    simp only [slotIdx] at *; split at h1 <;> split <;> split <;> omega
  have hlt := slotIdx_lt h2 (show l.length - 1 < q.size by omega)
  simp [Ring.back, hne', Ring.derefPtr, e, Ring.load, hlt, hlive]

/-- Evaluation of the found branch when the lookup is exact. -/
theorem found_eval_of (T : PayloadType P) (k : Lookup) (geo : GeoId) (ft : Nat) (q : Ring P)
    (l : List P) (h : Repr q l) (hs : q.size < 2147483648) (hw : WellFormed T l)
    (hi : Increasing T l) (hasErr running : Bool) (c : Counters)
    (dr : Request) (a z : P) (h0 : l[0]? = some a) (hz : l.getLast? = some z)
    (h1 : T.ts a ≤ dr.wBegin) (h2 : dr.wEnd ≤ T.ts z) (j : Nat)
    (e : lookup T k q hasErr dr.wBegin = .ok (slotIdx q.size q.rd j)) (hc : Covers T.ts l dr.wBegin j) :
    dataRequest T k geo ft q hasErr running c dr =
      .ok ⟨.found, some ⟨createHeader geo ft dr, wanted T l dr.wBegin dr.wEnd⟩,
        { c with found := c.found + 1 }⟩ := by
  have hocc : q.occupancy ≠ 0 := by
    rw [h.occ]; have := getElem?_lt h0; omega
  have hj : j < l.length := by obtain ⟨⟨b, hb, -⟩, -⟩ := hc; exact getElem?_lt hb
  have hse : q.size ≤ endIdx := by simp [endIdx]; omega
  have hpos : slotIdx q.size q.rd j = pos q l j := by simp [pos, hj]
  have hlen := h.len
  have hex : extract T q dr.wBegin dr.wEnd (q.size + 1) (pos q l j) =
      .ok (wanted T l dr.wBegin dr.wEnd) := by
    rcases extract_list T h hse dr.wBegin dr.wEnd (q.size + 1) j (by omega) with e1 | e1
    · rw [e1, extractSkip_eq, wanted_drop T l hw hi _ _ _ hc]
      · intro x hx; exact hw x (List.mem_of_mem_drop hx)
      · have : l = l.take j ++ l.drop j := (List.take_append_drop j l).symm
        simp only [Increasing] at hi ⊢
        rw [this] at hi
        simp only [allFrames, List.flatMap_append] at hi
        exact (List.pairwise_append.1 hi).2.1
    · omega
  have hne : pos q l j ≠ endIdx := pos_ne_end h hse j hj
  simp only [dataRequest, hocc, ne_eq, not_false_eq_true, if_true, front_deref h h0,
    back_deref h hz, Outcome.bind_ok, h1, h2, and_self, e, hpos, hne, if_false, hex]

/-- Evaluation of the found branch. -/
theorem found_eval (T : PayloadType P) (k : Lookup) (geo : GeoId) (ft : Nat) (q : Ring P)
    (l : List P) (h : Repr q l) (hs : q.size < 2147483648) (hw : WellFormed T l)
    (hi : Increasing T l) (hasErr running : Bool) (hk : LookupOk T k l hasErr) (c : Counters)
    (dr : Request) (a z : P) (h0 : l[0]? = some a) (hz : l.getLast? = some z)
    (h1 : T.ts a ≤ dr.wBegin) (h2 : dr.wEnd ≤ T.ts z)
    (h3 : k = .binary ∨ dr.wBegin ≤ dr.wEnd) :
    dataRequest T k geo ft q hasErr running c dr =
      .ok ⟨.found, some ⟨createHeader geo ft dr, wanted T l dr.wBegin dr.wEnd⟩,
        { c with found := c.found + 1 }⟩ := by
  obtain ⟨j, e, hc⟩ := lookup_found T k q l h hs (increasing_sorted T l hw hi) hasErr hk a z h0 hz
    dr.wBegin h1 (h3.imp id (fun h => by omega))
  exact found_eval_of T k geo ft q l h hs hw hi hasErr running c dr a z h0 hz h1 h2 j e hc

/-- **C11** For every stored sequence of well-formed payloads whose frames are in increasing time
order (gaps allowed; any wrap position), every window whose begin is not before the oldest and
whose end is not after the newest stored payload, and an exact lookup (binary search; or fixed
rate with gaps flagged), the request is answered as found and the fragment carries exactly the
stored frames with `window_begin ≤ timestamp < window_end`, in time order, none twice. -/
theorem C11_found_exact (T : PayloadType P) (k : Lookup) (geo : GeoId) (ft : Nat) (q : Ring P)
    (l : List P) (h : Repr q l) (hs : q.size < 2147483648) (hw : WellFormed T l)
    (hi : Increasing T l) (hasErr running : Bool) (hk : LookupOk T k l hasErr) (c : Counters)
    (dr : Request) (a z : P) (h0 : l[0]? = some a) (hz : l.getLast? = some z)
    (h1 : T.ts a ≤ dr.wBegin) (h2 : dr.wEnd ≤ T.ts z)
    (h3 : k = .binary ∨ dr.wBegin ≤ dr.wEnd) :
    ∃ r fr, dataRequest T k geo ft q hasErr running c dr = .ok r ∧ r.code = .found ∧
      r.fragment = some fr ∧
      (∀ f, f ∈ fr.frames ↔ f ∈ allFrames T l ∧ dr.wBegin ≤ frameTs T f ∧ frameTs T f < dr.wEnd) ∧
      fr.frames.Pairwise (fun f g => frameTs T f < frameTs T g) := by
  refine ⟨_, _, found_eval T k geo ft q l h hs hw hi hasErr running hk c dr a z h0 hz h1 h2 h3,
    rfl, rfl, ?_, ?_⟩
  · intro f; simp [wanted]
  · exact hi.sublist (List.filter_sublist (p := _) (l := allFrames T l))

/-- WIB-like payloads: the payload is its first timestamp, 12 frames, tick 25. -/
def wibLike : PayloadType Nat := ⟨id, fun _ => 12, fun p i => p + i * 25, 25⟩

/-- Non-vacuity for C11/C12: wrapped contents with a flagged gap, window inside. -/
example : WellFormed wibLike [1000, 1300, 2500] ∧ Increasing wibLike [1000, 1300, 2500] ∧
    LookupOk wibLike (.fixed 12) [1000, 1300, 2500] true ∧
    Repr (demo 1000 1300 2500) [1000, 1300, 2500] := by
  refine ⟨?_, ?_, ?_, demo_repr _ _ _⟩
  · intro p _; exact ⟨by simp [wibLike], fun i _ => rfl⟩
  · unfold Increasing; decide
  · refine ⟨by decide, by decide, by simp, ?_⟩
    intro a ha; simp at ha; subst ha; decide

/-- **C11 is false for the sorted-list buffers**: their lookup returns the first payload that does
not start before the window, so frames of the payload straddling the window begin are left
out. Window [1100, 1300) over payloads starting at 1000 and 1300: eight frames are stored in the
window, the fragment carries none. -/
theorem C11_skiplist_counterexample :
    foundFramesSkip wibLike [1000, 1300] 1100 1300 = [] ∧
    (wanted wibLike [1000, 1300] 1100 1300).length = 8 := by decide

/-- Specification of the outcome of a request. -/
def classify (bounds : Option (Nat × Nat)) (running : Bool) (b e : Nat) : Code :=
  match bounds with
  | none => .notFound
  | some (oldest, newest) =>
    if b < oldest then .notFound
    else if e ≤ newest then .found
    else if running then .notYet else .notFound

/-- Oldest and newest stored timestamps. -/
def bounds (T : PayloadType P) (l : List P) : Option (Nat × Nat) :=
  match l.head?, l.getLast? with
  | some a, some z => some (T.ts a, T.ts z)
  | _, _ => none

/-- Specification of the counter changes. -/
def countersAfter (bounds : Option (Nat × Nat)) (running : Bool) (b e : Nat) (c : Counters) :
    Counters :=
  match bounds with
  | none => { c with bad := c.bad + 1 }
  | some (oldest, newest) =>
    if b < oldest then { c with oldWindow := c.oldWindow + 1, bad := c.bad + 1 }
    else if e ≤ newest then { c with found := c.found + 1 }
    else if running then { c with delayed := c.delayed + 1 }
    else { c with delayed := c.delayed + 1, bad := c.bad + 1 }

/-- The outcome of a request for binary search and for windows with `begin ≤ end`; C12 itself is in DataReqWindow. -/
theorem classification (T : PayloadType P) (k : Lookup) (geo : GeoId) (ft : Nat) (q : Ring P)
    (l : List P) (h : Repr q l) (hs : q.size < 2147483648) (hw : WellFormed T l)
    (hi : Increasing T l) (hasErr running : Bool) (hk : LookupOk T k l hasErr) (c : Counters)
    (dr : Request) (hwin : k = .binary ∨ dr.wBegin ≤ dr.wEnd) :
    ∃ r, dataRequest T k geo ft q hasErr running c dr = .ok r ∧
      r.code = classify (bounds T l) running dr.wBegin dr.wEnd ∧
      r.counters = countersAfter (bounds T l) running dr.wBegin dr.wEnd c ∧
      (r.fragment = none ↔ r.code = .notYet) ∧
      (∀ fr, r.fragment = some fr →
        fr.header = { createHeader geo ft dr with dataNotFound := decide (r.code ≠ .found) } ∧
        (r.code ≠ .found → fr.frames = [])) := by
  cases hl : l with
  | nil =>
    rw [hl] at h
    have : q.occupancy = 0 := by rw [h.occ]; rfl
    refine ⟨_, by simp only [dataRequest, this, ne_eq, not_true_eq_false, if_false]; rfl, ?_⟩
    simp [classify, bounds, countersAfter]
  | cons a rest =>
    rw [← hl]
    have h0 : l[0]? = some a := by rw [hl]; rfl
    have hh : l.head? = some a := by rw [hl]; rfl
    obtain ⟨z, hz⟩ : ∃ z, l.getLast? = some z := by
      rw [hl]; exact ⟨_, List.getLast?_eq_some_getLast (by simp)⟩
    have hocc : q.occupancy ≠ 0 := by
      rw [h.occ]; have := getElem?_lt h0; omega
    have hb : bounds T l = some (T.ts a, T.ts z) := by simp [bounds, hh, hz]
    rw [hb]
    by_cases c1 : dr.wBegin < T.ts a
    · refine ⟨_, by
        simp only [dataRequest, hocc, ne_eq, not_false_eq_true, if_true, front_deref h h0,
          back_deref h hz, Outcome.bind_ok, show ¬ T.ts a ≤ dr.wBegin by omega, false_and, if_false,
          show T.ts a > dr.wBegin from c1]; rfl, ?_⟩
      simp [classify, countersAfter, c1]
    · by_cases c2 : dr.wEnd ≤ T.ts z
      · refine ⟨_, found_eval T k geo ft q l h hs hw hi hasErr running hk c dr a z h0 hz (by omega)
          c2 hwin, ?_⟩
        simp [classify, countersAfter, c1, c2, createHeader]
      · cases running with
        | true =>
          refine ⟨_, by
            simp only [dataRequest, hocc, ne_eq, not_false_eq_true, if_true, front_deref h h0,
              back_deref h hz, Outcome.bind_ok, c2, and_false, if_false,
              show ¬ T.ts a > dr.wBegin by omega, show T.ts z < dr.wEnd by omega]; rfl, ?_⟩
          simp [classify, countersAfter, c1, c2]
        | false =>
          refine ⟨_, by
            simp only [dataRequest, hocc, ne_eq, not_false_eq_true, if_true, front_deref h h0,
              back_deref h hz, Outcome.bind_ok, c2, and_false, if_false,
              show ¬ T.ts a > dr.wBegin by omega, show T.ts z < dr.wEnd by omega]; rfl, ?_⟩
          simp [classify, countersAfter, c1, c2]

/-- All four outcomes on the contents 1000, 1300, 2500 (flagged gap) and on an empty buffer. -/
example : classify (bounds wibLike [1000, 1300, 2500]) true 1100 1400 = .found ∧
    classify (bounds wibLike [1000, 1300, 2500]) true 100 400 = .notFound ∧
    classify (bounds wibLike [1000, 1300, 2500]) true 2600 9000 = .notYet ∧
    classify (bounds wibLike []) true 100 400 = .notFound := by decide

/-- **C12 (uncategorised)** With no assumption at all on the buffer, a request never lands in the
"don't know how to categorise" branch. -/
theorem C12_never_uncategorized (T : PayloadType P) (k : Lookup) (geo : GeoId) (ft : Nat)
    (q : Ring P) (hasErr running : Bool) (c : Counters) (dr : Request) (r : Result P)
    (hr : dataRequest T k geo ft q hasErr running c dr = .ok r) :
    r.counters.uncategorized = c.uncategorized := by
  simp only [dataRequest] at hr
  split at hr
  · cases hf : q.derefPtr q.front with
    | ub w => simp [hf] at hr
    | throws w => simp [hf] at hr
    | ok a =>
      cases hb : q.derefPtr q.back with
      | ub w => simp [hf, hb] at hr
      | throws w => simp [hf, hb] at hr
      | ok z =>
        simp only [hf, hb, Outcome.bind_ok] at hr
        split at hr
        · cases hlk : lookup T k q hasErr dr.wBegin with
          | ub w => simp [hlk] at hr
          | throws w => simp [hlk] at hr
          | ok it =>
            simp only [hlk, Outcome.bind_ok] at hr
            split at hr
            · split at hr <;> (injection hr with hr; subst hr; rfl)
            · cases hex : extract T q dr.wBegin dr.wEnd (q.size + 1) it with
              | ub w => simp [hex] at hr
              | throws w => simp [hex] at hr
              | ok fs => simp [hex] at hr; subst hr; rfl
        · split at hr
          · injection hr with hr; subst hr; rfl
          · split at hr
            · split at hr <;> (injection hr with hr; subst hr; rfl)
            · exfalso; omega
  · injection hr with hr; subst hr; rfl

/-- A window the buffer cannot serve at all (begin after end) is answered and counted elsewhere. -/
example : ∃ r, dataRequest wibLike .binary ⟨3, 1, 7⟩ 1 (demo 1000 1300 2500) false true
    ⟨0, 0, 0, 0, 0, 0⟩ ⟨1, 2, 1500, 1200, 5, 0⟩ = .ok r ∧ r.counters.uncategorized = 0 := ⟨_, rfl, rfl⟩

/-- A request as an independent observer reads it off a fragment header. -/
def Echoes (hd : Header) (geo : GeoId) (ft : Nat) (dr : Request) : Prop :=
  hd.trigNum = dr.trigNum ∧ hd.trigTs = dr.trigTs ∧ hd.wBegin = dr.wBegin ∧ hd.wEnd = dr.wEnd ∧
  hd.run = dr.run ∧ hd.seq = dr.seq ∧ hd.geo.system = geo.system ∧ hd.geo.region = geo.region ∧
  hd.geo.element = geo.element ∧ hd.fragType = ft

/-- **C14** With no assumption on the buffer contents: whatever fragment a data request returns,
its header names the request (trigger number, timestamp, window, run, sequence number), the
producing link and the fragment type; the data-not-found bit is set exactly on fragments that
were not found, and those carry no frames; "retry later" is the only outcome without a
fragment. -/
theorem C14_fragment_echoes_request (T : PayloadType P) (k : Lookup) (geo : GeoId) (ft : Nat)
    (q : Ring P) (hasErr running : Bool) (c : Counters) (dr : Request) (r : Result P)
    (hr : dataRequest T k geo ft q hasErr running c dr = .ok r) :
    (r.fragment = none ↔ r.code = .notYet) ∧
    ∀ fr, r.fragment = some fr → Echoes fr.header geo ft dr ∧
      (fr.header.dataNotFound = true ↔ r.code = .notFound) ∧
      (fr.header.dataNotFound = true → fr.frames = []) := by
  simp only [dataRequest] at hr
  split at hr
  · cases hf : q.derefPtr q.front with
    | ub w => simp [hf] at hr
    | throws w => simp [hf] at hr
    | ok a =>
      cases hb : q.derefPtr q.back with
      | ub w => simp [hf, hb] at hr
      | throws w => simp [hf, hb] at hr
      | ok z =>
        simp only [hf, hb, Outcome.bind_ok] at hr
        split at hr
        · cases hlk : lookup T k q hasErr dr.wBegin with
          | ub w => simp [hlk] at hr
          | throws w => simp [hlk] at hr
          | ok it =>
            simp only [hlk, Outcome.bind_ok] at hr
            split at hr
            · split at hr <;> (injection hr with hr; subst hr; simp [Echoes, createHeader])
            · cases hex : extract T q dr.wBegin dr.wEnd (q.size + 1) it with
              | ub w => simp [hex] at hr
              | throws w => simp [hex] at hr
              | ok fs => simp [hex] at hr; subst hr; simp [Echoes, createHeader]
        · split at hr
          · injection hr with hr; subst hr; simp [Echoes, createHeader]
          · split at hr
            · split at hr <;> (injection hr with hr; subst hr; simp [Echoes, createHeader])
            · injection hr with hr; subst hr; simp [Echoes, createHeader]
  · injection hr with hr; subst hr; simp [Echoes, createHeader]

/-- A request that is found. -/
example : ∃ r, dataRequest wibLike .binary ⟨3, 1, 7⟩ 1 (demo 1000 1300 2500) false true
    ⟨0, 0, 0, 0, 0, 0⟩ ⟨1, 2, 1100, 1200, 5, 0⟩ = .ok r ∧ r.code = .found := ⟨_, rfl, rfl⟩

/-- **C14 (timed-out and end-of-run answers)** The empty fragment echoes the request, has the
data-not-found bit and no frames. -/
theorem C14_empty_fragment_echoes (geo : GeoId) (ft : Nat) (dr : Request) :
    Echoes (createEmpty P geo ft dr).header geo ft dr ∧
    (createEmpty P geo ft dr).header.dataNotFound = true ∧ (createEmpty P geo ft dr).frames = [] := by
  simp [createEmpty, Echoes, createHeader]

/-- Non-vacuity for C14: a request on an empty ring is answered. -/
example : ∃ r, dataRequest wibLike .binary ⟨3, 1, 7⟩ 1 (Ring.init Nat 4) false true
    ⟨0, 0, 0, 0, 0, 0⟩ ⟨1, 2, 100, 200, 5, 0⟩ = .ok r ∧ r.code = .notFound := ⟨_, rfl, rfl⟩

end Verif.DataReq
