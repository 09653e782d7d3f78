import Verif.DataReqProps
/- Properties C11, C12 (data requests) for all windows, also those that end before they begin. -/
namespace Verif.DataReq
open Verif.Ring Verif.Search

variable {P : Type}

/-- The window begins more than one payload after the newest stored one, and the lookup computes the place from the fixed rate. -/
def Late (T : PayloadType P) (k : Lookup) (l : List P) (hasErr : Bool) (b : Nat) : Prop :=
  ∃ nf a, k = .fixed nf ∧ hasErr = false ∧ l[0]? = some a ∧ T.ts a + l.length * (T.tick * nf) < b

/-- The lookup matters only in the found branch. -/
theorem other_lookup (T : PayloadType P) (k : Lookup) (geo : GeoId) (ft : Nat) (q : Ring P) (l : List P) (h : Repr q l)
    (hasErr running : Bool) (c : Counters) (dr : Request)
    (hn : ∀ a z, l[0]? = some a → l.getLast? = some z → ¬ (T.ts a ≤ dr.wBegin ∧ dr.wEnd ≤ T.ts z)) :
    dataRequest T k geo ft q hasErr running c dr = dataRequest T .binary geo ft q hasErr running c dr := by
  cases hl : l with
  | nil =>
    rw [hl] at h
    have : q.occupancy = 0 := by rw [h.occ]; rfl
    simp [dataRequest, this]
  | cons a rest =>
    have h0 : l[0]? = some a := by rw [hl]; rfl
    obtain ⟨z, hz⟩ : ∃ z, l.getLast? = some z := by
      rw [hl]; exact ⟨_, List.getLast?_eq_some_getLast (by simp)⟩
    simp only [dataRequest, front_deref h h0, back_deref h hz, Outcome.bind_ok, if_neg (hn a z h0 hz)]

theorem wanted_nil (T : PayloadType P) (l : List P) (b e : Nat) (h : e ≤ b) : wanted T l b e = [] := by
  unfold wanted
  rw [List.filter_eq_nil_iff]
  intro f _ hf
  simp at hf
  omega

/-- The found branch for any window that is not late. -/
theorem found_any (T : PayloadType P) (k : Lookup) (geo : GeoId) (ft : Nat) (q : Ring P)
    (l : List P) (h : Repr q l) (hs : q.size < 2147483648) (hw : WellFormed T l)
    (hi : Increasing T l) (hasErr running : Bool) (hk : LookupOk T k l hasErr) (c : Counters)
    (dr : Request) (a z : P) (h0 : l[0]? = some a) (hz : l.getLast? = some z)
    (h1 : T.ts a ≤ dr.wBegin) (h2 : dr.wEnd ≤ T.ts z) (h3 : ¬ Late T k l hasErr dr.wBegin) :
    dataRequest T k geo ft q hasErr running c dr =
      .ok ⟨.found, some ⟨createHeader geo ft dr, wanted T l dr.wBegin dr.wEnd⟩,
        { c with found := c.found + 1 }⟩ := by
  cases k with
  | binary => exact found_eval T .binary geo ft q l h hs hw hi hasErr running hk c dr a z h0 hz h1 h2 (.inl rfl)
  | fixed nf =>
    cases hasErr with
    | true =>
      obtain ⟨j, e, hc⟩ := lookup_found T .binary q l h hs (increasing_sorted T l hw hi) true trivial a z h0 hz
        dr.wBegin h1 (.inl rfl)
      exact found_eval_of T _ geo ft q l h hs hw hi true running c dr a z h0 hz h1 h2 j
        (by rw [← e]; simp [lookup, fixedRateLowerBound]) hc
    | false =>
      obtain ⟨ht, hnf, hg, hov⟩ := hk
      have hg := hg rfl
      have hov := hov a h0
      have hpos : 0 < T.tick * nf := Nat.mul_pos ht hnf
      have hle : dr.wBegin ≤ T.ts a + l.length * (T.tick * nf) := by
        rcases Nat.lt_or_ge (T.ts a + l.length * (T.tick * nf)) dr.wBegin with hlt | hge
        · exact absurd ⟨nf, a, rfl, rfl, h0, hlt⟩ h3
        · exact hge
      obtain ⟨c1, c2, -⟩ := C08_fixed_rate_exact T.ts q l h T.tick nf ht hnf hs hg a h0 hov dr.wBegin
      rcases Nat.lt_or_eq_of_le hle with hlt | heq
      · obtain ⟨j, hc, e, -⟩ := c1 h1 hlt
        exact found_eval_of T _ geo ft q l h hs hw hi false running c dr a z h0 hz h1 h2 j
          (by simp [lookup, fixedRateLowerBound, e]) hc
      · -- the place after the newest payload
        obtain ⟨i, e, hgood⟩ := c2 heq
        have hassoc : l.length * T.tick * nf = l.length * (T.tick * nf) := Nat.mul_assoc _ _ _
        have e' := fixed_eval h T.ts T.tick nf ht hnf hs h0 hov dr.wBegin h1 (by omega)
        have hidx : (dr.wBegin - T.ts a) / (T.tick * nf) = l.length := by
          rw [heq, Nat.add_sub_cancel_left, Nat.mul_div_cancel _ hpos]
        rw [e, hidx] at e'
        injection e' with e'
        have hilt : i < q.size := by rw [e']; exact slotIdx_lt h.rdlt h.len
        have hne : i ≠ endIdx := by simp only [endIdx]; omega
        have hl0 := getElem?_lt h0
        have hlast := gapfree_last hg h0 hz
        have hz' : T.ts z ≤ dr.wBegin := by
          have : (l.length - 1) * (T.tick * nf) ≤ l.length * (T.tick * nf) := Nat.mul_le_mul_right _ (by omega)
          omega
        have hocc : q.occupancy ≠ 0 := by rw [h.occ]; omega
        have hlk : lookup T (.fixed nf) q false dr.wBegin = .ok i := by simp [lookup, fixedRateLowerBound, e]
        have hex : extract T q dr.wBegin dr.wEnd (q.size + 1) i = .ok [] := by
          simp [extract, hgood]
        rw [wanted_nil T l _ _ (by omega)]
        simp only [dataRequest, hocc, ne_eq, not_false_eq_true, if_true, front_deref h h0,
          back_deref h hz, Outcome.bind_ok, h1, h2, and_self, hlk, hne, if_false, hex]

/-- **C12 (partial)** For every contents (as in C11, or empty) and every window, except windows that end before they begin and
begin late on a fixed-rate buffer without registered gap, the outcome is the specified one: found / gone / not yet (gone-like at
end of run) / empty; exactly the specified counters advance ("uncategorised" never); a fragment is returned unless the request is
to be retried, its error bit is set iff it is not a found one, an error fragment carries no frames, and the header echoes the
request. Missing: the windows excepted (`C12_late`, counterexample). -/
theorem C12_classification_partial (T : PayloadType P) (k : Lookup) (geo : GeoId) (ft : Nat) (q : Ring P)
    (l : List P) (h : Repr q l) (hs : q.size < 2147483648) (hw : WellFormed T l)
    (hi : Increasing T l) (hasErr running : Bool) (hk : LookupOk T k l hasErr) (c : Counters)
    (dr : Request) (hwin : dr.wBegin ≤ dr.wEnd ∨ ¬ Late T k l hasErr dr.wBegin) :
    ∃ r, dataRequest T k geo ft q hasErr running c dr = .ok r ∧
      r.code = classify (bounds T l) running dr.wBegin dr.wEnd ∧
      r.counters = countersAfter (bounds T l) running dr.wBegin dr.wEnd c ∧
      (r.fragment = none ↔ r.code = .notYet) ∧
      (∀ fr, r.fragment = some fr →
        fr.header = { createHeader geo ft dr with dataNotFound := decide (r.code ≠ .found) } ∧
        (r.code ≠ .found → fr.frames = [])) := by
  rcases hwin with hwin | hwin
  · exact classification T k geo ft q l h hs hw hi hasErr running hk c dr (.inr hwin)
  by_cases hf : ∃ a z, l[0]? = some a ∧ l.getLast? = some z ∧ T.ts a ≤ dr.wBegin ∧ dr.wEnd ≤ T.ts z
  · obtain ⟨a, z, h0, hz, h1, h2⟩ := hf
    have hh : l.head? = some a := by rw [List.head?_eq_getElem?]; exact h0
    have hb : bounds T l = some (T.ts a, T.ts z) := by simp [bounds, hh, hz]
    refine ⟨_, found_any T k geo ft q l h hs hw hi hasErr running hk c dr a z h0 hz h1 h2 hwin, ?_⟩
    have h1' : ¬ dr.wBegin < T.ts a := by omega
    simp [hb, classify, countersAfter, h1', h2, createHeader]
  · rw [other_lookup T k geo ft q l h hasErr running c dr (fun a z h0 hz hx => hf ⟨a, z, h0, hz, hx⟩)]
    exact classification T .binary geo ft q l h hs hw hi hasErr running trivial c dr (.inl rfl)

/-- **C12 (the windows excepted)** A window that ends at or before the newest stored payload and begins more than a payload after
it, on a fixed-rate buffer without registered gap, is treated as one whose data have not arrived: the request is retried, or
answered with the error bit at the end of the run. -/
theorem C12_late (T : PayloadType P) (k : Lookup) (geo : GeoId) (ft : Nat) (q : Ring P)
    (l : List P) (h : Repr q l) (hs : q.size < 2147483648) (hasErr running : Bool) (hk : LookupOk T k l hasErr) (c : Counters)
    (dr : Request) (hlate : Late T k l hasErr dr.wBegin) (z : P) (hz : l.getLast? = some z) (h2 : dr.wEnd ≤ T.ts z) :
    dataRequest T k geo ft q hasErr running c dr = .ok (if running
      then ⟨.notYet, none, { c with delayed := c.delayed + 1 }⟩
      else ⟨.notFound, some ⟨{ createHeader geo ft dr with dataNotFound := true }, []⟩,
        { c with delayed := c.delayed + 1, bad := c.bad + 1 }⟩) := by
  obtain ⟨nf, a, rfl, rfl, h0, hlt⟩ := hlate
  obtain ⟨ht, hnf, hg, hov⟩ := hk
  obtain ⟨-, -, c3⟩ := C08_fixed_rate_exact T.ts q l h T.tick nf ht hnf hs (hg rfl) a h0 (hov a h0) dr.wBegin
  have e := c3 (.inr hlt)
  have hlk : lookup T (.fixed nf) q false dr.wBegin = .ok endIdx := by simp [lookup, fixedRateLowerBound, e]
  have hocc : q.occupancy ≠ 0 := by rw [h.occ]; have := getElem?_lt h0; omega
  have h1 : T.ts a ≤ dr.wBegin := by omega
  simp only [dataRequest, hocc, ne_eq, not_false_eq_true, if_true, front_deref h h0,
    back_deref h hz, Outcome.bind_ok, h1, h2, and_self, hlk]
  cases running <;> simp

theorem demo_lookup : LookupOk wibLike (.fixed 12) [1000, 1300, 1600] false := by
  refine ⟨by decide, by decide, fun _ => ?_, ?_⟩
  · intro k a b h1 h2
    match k, h1, h2 with
    | 0, h1, h2 => injection h1 with h1; injection h2 with h2; subst h1 h2; rfl
    | 1, h1, h2 => injection h1 with h1; injection h2 with h2; subst h1 h2; rfl
    | k + 2, h1, h2 => simp at h2
  · intro a ha
    injection ha with ha
    subst ha
    decide

theorem demo_late : Late wibLike (.fixed 12) [1000, 1300, 1600] false 2000 := ⟨12, 1000, rfl, rfl, rfl, by decide⟩

/-- **C12 is false for some windows that end before they begin**: with 1000, 1300, 1600 stored, the window from 2000 to 1500 is to
be answered as found (and empty), as it is with binary search; the fixed-rate buffer has it retried. -/
theorem C12_inverted_window_counterexample (c : Counters) :
    classify (bounds wibLike [1000, 1300, 1600]) true 2000 1500 = .found ∧
    dataRequest wibLike (.fixed 12) ⟨0, 0, 0⟩ 1 (demo 1000 1300 1600) false true c ⟨1, 2000, 2000, 1500, 1, 0⟩ =
      .ok ⟨.notYet, none, { c with delayed := c.delayed + 1 }⟩ ∧
    ∃ fr, dataRequest wibLike .binary ⟨0, 0, 0⟩ 1 (demo 1000 1300 1600) false true c ⟨1, 2000, 2000, 1500, 1, 0⟩ =
      .ok ⟨.found, some fr, { c with found := c.found + 1 }⟩ ∧ fr.frames = [] := by
  have hw : WellFormed wibLike [1000, 1300, 1600] := fun p _ => ⟨by simp [wibLike], fun i _ => rfl⟩
  have hi : Increasing wibLike [1000, 1300, 1600] := by unfold Increasing; decide
  have h1 := C12_late wibLike (.fixed 12) ⟨0, 0, 0⟩ 1 _ _ (demo_repr 1000 1300 1600) (by decide) false true demo_lookup c
    ⟨1, 2000, 2000, 1500, 1, 0⟩ demo_late 1600 rfl (by decide)
  have h2 := found_any wibLike .binary ⟨0, 0, 0⟩ 1 _ _ (demo_repr 1000 1300 1600) (by decide) hw hi false true trivial c
    ⟨1, 2000, 2000, 1500, 1, 0⟩ 1000 1600 rfl rfl (by decide) (by decide) (by rintro ⟨nf, a, h, -⟩; cases h)
  exact ⟨by decide, h1, _, h2, wanted_nil _ _ _ _ (by decide)⟩

/-- Windows of `C12_classification_partial` that end before they begin: the window from 1900 to 1500 is not late. -/
example : LookupOk wibLike (.fixed 12) [1000, 1300, 1600] false ∧ ¬ Late wibLike (.fixed 12) [1000, 1300, 1600] false 1900 := by
  refine ⟨demo_lookup, ?_⟩
  rintro ⟨nf, a, h1, -, h2, h3⟩
  injection h1 with h1
  injection h2 with h2
  subst h1 h2
  exact absurd h3 (by decide)

/-- A window that begins no later than the newest stored payload is not late. -/
theorem not_late {T : PayloadType P} {k : Lookup} {l : List P} {hasErr : Bool} (hk : LookupOk T k l hasErr) {z : P}
    (hz : l.getLast? = some z) {b : Nat} (hb : b ≤ T.ts z) : ¬ Late T k l hasErr b := by
  rintro ⟨nf, a, rfl, rfl, h0, hlt⟩
  obtain ⟨-, -, hg, -⟩ := hk
  have hlast := gapfree_last (hg rfl) h0 hz
  have : (l.length - 1) * (T.tick * nf) ≤ l.length * (T.tick * nf) := Nat.mul_le_mul_right _ (by omega)
  omega

/-- Every window: the request is evaluated, as `classify` says unless the window is inverted and late; a found fragment carries the
frames of the window, which lies between the oldest and the newest stored payload. -/
theorem eval_every (T : PayloadType P) (k : Lookup) (geo : GeoId) (ft : Nat) (q : Ring P)
    (l : List P) (h : Repr q l) (hs : q.size < 2147483648) (hw : WellFormed T l)
    (hi : Increasing T l) (hasErr running : Bool) (hk : LookupOk T k l hasErr) (c : Counters) (dr : Request) :
    ∃ r, dataRequest T k geo ft q hasErr running c dr = .ok r ∧
      (dr.wBegin ≤ dr.wEnd ∨ ¬ Late T k l hasErr dr.wBegin → r.code = classify (bounds T l) running dr.wBegin dr.wEnd) ∧
      (r.fragment = none ↔ r.code = .notYet) ∧
      ∀ fr, r.fragment = some fr →
        fr.header = { createHeader geo ft dr with dataNotFound := decide (r.code ≠ .found) } ∧
        (r.code ≠ .found → fr.frames = []) ∧
        (r.code = .found → fr.frames = wanted T l dr.wBegin dr.wEnd ∧
          ∃ a z, l[0]? = some a ∧ l.getLast? = some z ∧ T.ts a ≤ dr.wBegin ∧ dr.wEnd ≤ T.ts z) := by
  by_cases hf : ∃ a z, l[0]? = some a ∧ l.getLast? = some z ∧ T.ts a ≤ dr.wBegin ∧ dr.wEnd ≤ T.ts z
  · obtain ⟨a, z, h0, hz, h1, h2⟩ := hf
    by_cases hl : Late T k l hasErr dr.wBegin
    · refine ⟨_, C12_late T k geo ft q l h hs hasErr running hk c dr hl z hz h2, ?_, ?_, ?_⟩
      · rintro (hx | hx)
        · exact absurd hl (not_late hk hz (by omega))
        · exact absurd hl hx
      · cases running <;> simp
      · intro fr hfr
        cases running
        · injection hfr with hfr
          subst hfr
          simp
        · cases hfr
    · have hh : l.head? = some a := by rw [List.head?_eq_getElem?]; exact h0
      have hb : bounds T l = some (T.ts a, T.ts z) := by simp [bounds, hh, hz]
      have h1' : ¬ dr.wBegin < T.ts a := by omega
      refine ⟨_, found_any T k geo ft q l h hs hw hi hasErr running hk c dr a z h0 hz h1 h2 hl, fun _ => ?_, ?_, ?_⟩
      · simp [hb, classify, h1', h2]
      · simp
      · intro fr hfr
        injection hfr with hfr
        subst hfr
        exact ⟨by simp [createHeader], by simp, fun _ => ⟨rfl, a, z, h0, hz, h1, h2⟩⟩
  · obtain ⟨r, e, hcode, -, h1, h2⟩ := classification T .binary geo ft q l h hs hw hi hasErr running trivial c dr (.inl rfl)
    rw [← other_lookup T k geo ft q l h hasErr running c dr (fun a z h0 hz hx => hf ⟨a, z, h0, hz, hx⟩)] at e
    have hnf : r.code ≠ .found := by
      intro hfo
      rw [hfo] at hcode
      cases hl : l with
      | nil => rw [hl] at hcode; simp [bounds, classify] at hcode
      | cons a rest =>
        obtain ⟨z, hz⟩ : ∃ z, l.getLast? = some z := by
          rw [hl]; exact ⟨_, List.getLast?_eq_some_getLast (by simp)⟩
        have h0 : l[0]? = some a := by rw [hl]; rfl
        have hh : l.head? = some a := by rw [hl]; rfl
        simp only [bounds, hh, hz, classify] at hcode
        split at hcode
        · cases hcode
        · split at hcode
          · exact hf ⟨a, z, h0, hz, by omega, by assumption⟩
          · split at hcode <;> cases hcode
    exact ⟨r, e, fun _ => hcode, h1, fun fr hfr => ⟨(h2 fr hfr).1, (h2 fr hfr).2, fun hx => absurd hx hnf⟩⟩

/-- **C11 (every window)** Whatever the window: if a request is answered as found, the fragment carries exactly the stored frames
with `window_begin ≤ timestamp < window_end`, in time order. -/
theorem C11_every_window (T : PayloadType P) (k : Lookup) (geo : GeoId) (ft : Nat) (q : Ring P)
    (l : List P) (h : Repr q l) (hs : q.size < 2147483648) (hw : WellFormed T l)
    (hi : Increasing T l) (hasErr running : Bool) (hk : LookupOk T k l hasErr) (c : Counters)
    (dr : Request) (r : Result P) (hr : dataRequest T k geo ft q hasErr running c dr = .ok r) (hf : r.code = .found) :
    ∃ fr, r.fragment = some fr ∧
      (∀ f, f ∈ fr.frames ↔ f ∈ allFrames T l ∧ dr.wBegin ≤ frameTs T f ∧ frameTs T f < dr.wEnd) ∧
      fr.frames.Pairwise (fun f g => frameTs T f < frameTs T g) := by
  obtain ⟨r', e, -, hnone, hfr⟩ := eval_every T k geo ft q l h hs hw hi hasErr running hk c dr
  rw [hr] at e
  injection e with e
  subst e
  cases hx : r.fragment with
  | none => rw [hnone.1 hx] at hf; cases hf
  | some fr =>
    obtain ⟨hfs, -⟩ := (hfr fr hx).2.2 hf
    refine ⟨fr, rfl, fun f => by rw [hfs]; simp [wanted], ?_⟩
    rw [hfs]
    exact hi.sublist (List.filter_sublist (p := _) (l := allFrames T l))

end Verif.DataReq
