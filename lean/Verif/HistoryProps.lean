import Verif.DataReqWindow
/- Property C13: found fragments are complete with respect to everything ever received. -/
namespace Verif.DataReq
open Verif.Ring Verif.Search
variable {P : Type}

/-- Histories of a latency buffer: `received` lists every payload handed to `write`
(ReadoutModel.hpp l.240), `stored` those that were accepted; cleanups pop oldest payloads
(DefaultRequestHandlerModel.hpp l.424-431), never more than are stored. -/
inductive History (n : Nat) : Ring P → List P → List P → Prop where
  | start : History n (Ring.init P n) [] []
  | receive (q q' : Ring P) (rec sto : List P) (p : P) (b : Bool) (h : History n q rec sto)
      (hw : q.write p = .ok (q', b)) :
      History n q' (rec ++ [p]) (if b then sto ++ [p] else sto)
  | cleanup (q q' : Ring P) (rec sto : List P) (k : Nat) (h : History n q rec sto)
      (hk : k ≤ q.occupancy) (hp : q.pop k = .ok q') : History n q' rec sto

theorem history_inv {n : Nat} (hn : 2 ≤ n) {q : Ring P} {rec sto : List P}
    (h : History n q rec sto) :
    q.size = n ∧ (∃ l, Repr q l ∧ l <:+ sto) ∧ sto.Sublist rec ∧
      rec.length = sto.length + q.overflow := by
  induction h with
  | start => exact ⟨rfl, ⟨[], repr_init n hn, List.suffix_refl _⟩, List.Sublist.refl _, rfl⟩
  | receive q q' rec sto p b _ hw ih =>
    obtain ⟨hs, ⟨l, hr, hsuf⟩, hsub, hov⟩ := ih
    by_cases hf : l.length < q.size - 1
    · obtain ⟨q1, e1, r1, s1, -, o1, -⟩ := write_ok hr p hf
      rw [hw] at e1
      injection e1 with e1; injection e1 with e1 e2
      subst e1; subst e2
      refine ⟨s1.trans hs, ⟨l ++ [p], r1, ?_⟩, ?_, ?_⟩
      · obtain ⟨t, ht⟩ := hsuf
        exact ⟨t, by simp [← ht]⟩
      · exact hsub.append (List.Sublist.refl _)
      · simp [o1]; omega
    · have e1 := write_full hr p hf
      rw [hw] at e1
      injection e1 with e1; injection e1 with e1 e2
      subst e1; subst e2
      refine ⟨hs, ⟨l, repr_overflow hr _, hsuf⟩, ?_, ?_⟩
      · exact hsub.trans (List.sublist_append_left _ _)
      · simp; omega
  | cleanup q q' rec sto k _ hk hp ih =>
    obtain ⟨hs, ⟨l, hr, hsuf⟩, hsub, hov⟩ := ih
    rw [hr.occ] at hk
    obtain ⟨q1, e1, r1, s1, o1⟩ := pop_ok hr k hk
    rw [hp] at e1; injection e1 with e1; subst e1
    exact ⟨s1.trans hs, ⟨_, r1, (List.drop_suffix k l).trans hsuf⟩, hsub, by omega⟩

theorem increasing_append (T : PayloadType P) {l m : List P} (h : Increasing T (l ++ m)) :
    Increasing T l ∧ Increasing T m ∧
      ∀ f ∈ allFrames T l, ∀ g ∈ allFrames T m, frameTs T f < frameTs T g := by
  simp only [Increasing, allFrames, List.flatMap_append] at h
  exact List.pairwise_append.1 h

/-- Nothing outside the stored part belongs to a window bounded by the stored part. -/
theorem wanted_extend (T : PayloadType P) (pre l post : List P) (hw : WellFormed T (pre ++ l ++ post))
    (hi : Increasing T (pre ++ l ++ post)) (a z : P) (h0 : l[0]? = some a)
    (hz : l.getLast? = some z) (b e : Nat) (h1 : T.ts a ≤ b) (h2 : e ≤ T.ts z) :
    wanted T (pre ++ l ++ post) b e = wanted T l b e := by
  obtain ⟨hi1, -, hi3⟩ := increasing_append T hi
  obtain ⟨-, -, hi4⟩ := increasing_append T hi1
  have ha : a ∈ l := List.mem_of_getElem? h0
  have hzm : z ∈ l := List.mem_of_getLast? hz
  have hwa := hw a (by simp [ha])
  have hwz := hw z (by simp [hzm])
  have epre : List.filter (fun f => decide (b ≤ frameTs T f) && decide (frameTs T f < e))
      (allFrames T pre) = [] := by
    rw [List.filter_eq_nil_iff]
    intro f hf hb
    rw [Bool.and_eq_true] at hb
    have hb1 : b ≤ frameTs T f := of_decide_eq_true hb.1
    have := hi4 f hf (a, 0) ((mem_allFrames T l _).2 ⟨ha, hwa.1⟩)
    rw [ts_eq_first T hwa] at this
    omega
  have epost : List.filter (fun f => decide (b ≤ frameTs T f) && decide (frameTs T f < e))
      (allFrames T post) = [] := by
    rw [List.filter_eq_nil_iff]
    intro f hf hb
    rw [Bool.and_eq_true] at hb
    have hb2 : frameTs T f < e := of_decide_eq_true hb.2
    have := hi3 (z, 0) ((mem_allFrames T (pre ++ l) _).2 ⟨by simp [hzm], hwz.1⟩) f hf
    rw [ts_eq_first T hwz] at this
    omega
  have split : allFrames T (pre ++ l ++ post) = allFrames T pre ++ allFrames T l ++ allFrames T post := by
    simp [allFrames]
  simp only [wanted, split, List.filter_append, epre, epost, List.nil_append, List.append_nil]

/-- **C13** Take any history of arrivals (some possibly rejected by a full buffer) and cleanups, and
any later arrivals `future`, such that the accepted and future payloads carry increasing frame
timestamps. If a request is answered as found (exact lookup as in C11), the fragment holds exactly
the frames of the window among *all* payloads ever accepted, including those already cleaned
away, and also among those still to come: nothing of the window is missing and nothing of it
can arrive later. If the buffer never overflowed the accepted payloads are all the received ones.
The window may be any, also one that ends before it begins. -/
theorem C13_found_complete (T : PayloadType P) (k : Lookup) (geo : GeoId) (ft n : Nat) (hn : 2 ≤ n)
    (hs : n < 2147483648) (q : Ring P) (received stored future : List P)
    (h : History n q received stored) (hw : WellFormed T (stored ++ future))
    (hi : Increasing T (stored ++ future)) (hasErr running : Bool)
    (hk : ∀ l, Repr q l → LookupOk T k l hasErr) (c : Counters) (dr : Request)
    (r : Result P)
    (hr : dataRequest T k geo ft q hasErr running c dr = .ok r) (hf : r.code = .found) :
    (∃ fr, r.fragment = some fr ∧ fr.frames.Nodup ∧
      ∀ f, f ∈ fr.frames ↔
        f ∈ allFrames T (stored ++ future) ∧ dr.wBegin ≤ frameTs T f ∧ frameTs T f < dr.wEnd) ∧
    (q.overflow = 0 → stored = received) := by
  obtain ⟨hsz, ⟨l, hrep, pre, hpre⟩, hsub, hov⟩ := history_inv hn h
  refine ⟨?_, fun h0 => hsub.eq_of_length (by omega)⟩
  have hi1 := (increasing_append T hi).1
  have hwl : WellFormed T l := fun p hp => hw p (by simp [← hpre, hp])
  have hil : Increasing T l := by
    rw [← hpre] at hi1; exact (increasing_append T hi1).2.1
  rcases Nat.lt_or_ge dr.wEnd dr.wBegin with hinv | hwin
  · obtain ⟨fr, h1, h2, h3⟩ := C11_every_window T k geo ft q l hrep (by omega) hwl hil hasErr running (hk l hrep) c dr r hr hf
    refine ⟨fr, h1, h3.imp (fun hlt heq => by rw [heq] at hlt; omega), fun f => ?_⟩
    rw [h2]
    constructor <;> (rintro ⟨-, g1, g2⟩; omega)
  · obtain ⟨r', e', hc, -⟩ := classification T k geo ft q l hrep (by omega) hwl hil hasErr running
      (hk l hrep) c dr (.inr hwin)
    rw [hr] at e'; injection e' with e'; subst e'
    rw [hf] at hc
    cases hl : l with
    | nil => subst hl; simp [bounds, classify] at hc
    | cons a rest =>
      have h0 : l[0]? = some a := by rw [hl]; rfl
      have hh : l.head? = some a := by rw [hl]; rfl
      obtain ⟨z, hz⟩ : ∃ z, l.getLast? = some z := by
        rw [hl]; exact ⟨_, List.getLast?_eq_some_getLast (by simp)⟩
      simp only [bounds, hh, hz, classify] at hc
      have h1 : T.ts a ≤ dr.wBegin := by
        by_cases c1 : dr.wBegin < T.ts a
        · simp [c1] at hc
        · omega
      have h2 : dr.wEnd ≤ T.ts z := by
        by_cases c2 : dr.wEnd ≤ T.ts z
        · exact c2
        · have : ¬ dr.wBegin < T.ts a := by omega
          cases running <;> simp [this, c2] at hc
      have ev := found_eval T k geo ft q l hrep (by omega) hwl hil hasErr running (hk l hrep) c dr a z h0
        hz h1 h2 (Or.inr hwin)
      rw [hr] at ev; injection ev with ev; subst ev
      refine ⟨_, rfl, ?_, ?_⟩
      · have : (wanted T l dr.wBegin dr.wEnd).Pairwise (fun f g => frameTs T f < frameTs T g) :=
          hil.sublist (List.filter_sublist (p := _) (l := allFrames T l))
        exact this.imp (fun hlt heq => by rw [heq] at hlt; omega)
      · intro f
        have := wanted_extend T pre l future (by rw [hpre]; exact hw) (by rw [hpre]; exact hi) a z h0 hz
          dr.wBegin dr.wEnd h1 h2
        rw [hpre] at this
        simp only
        rw [← this]
        simp [wanted]

/-- Non-vacuity for C13: a size-3 ring after arrivals 1000, 1300, 1600 with a cleanup of the first;
the request [1310, 1500) is answered as found, with arrival 1900 still to come. -/
example : ∃ q received stored, History (P := Nat) 3 q received stored ∧
    stored = [1000, 1300, 1600] ∧
    WellFormed wibLike (stored ++ [1900]) ∧ Increasing wibLike (stored ++ [1900]) ∧
    (∀ l, Repr q l → LookupOk wibLike .binary l false) ∧
    ∃ r, dataRequest wibLike .binary ⟨0, 0, 0⟩ 1 q false true ⟨0, 0, 0, 0, 0, 0⟩
      ⟨1, 2, 1310, 1500, 5, 0⟩ = .ok r ∧ r.code = .found := by
  refine ⟨_, _, _, .receive _ _ _ _ 1600 true (.cleanup _ _ _ _ 1 (.receive _ _ _ _ 1300 true
    (.receive _ _ _ _ 1000 true .start rfl) rfl) (by decide) rfl) rfl, rfl, ?_, ?_, ?_, ?_⟩
  · intro p _; exact ⟨by simp [wibLike], fun i _ => rfl⟩
  · unfold Increasing; decide
  · intro l _; trivial
  · exact ⟨_, rfl, rfl⟩

end Verif.DataReq
