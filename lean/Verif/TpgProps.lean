import Verif.TpgSplit

/-!
# Properties of the software hit finder

`processor taps old ins` is a run over the superchunks `ins`; `chanStream ins c` are the samples
of channel `c` in it.  The specification of hits (`overAt`, `ends`, `runLen`, `hitAt`, …) is in
`Verif.TpgSpec` and refers to the samples only, with unbounded arithmetic except for the 16-bit
filter register.
-/

namespace Verif.Tpg

/-- The taps `firwin_int(7, 0.1, 64)` yields, with the appended zero
(`/repo/src/wib/WIBFrameProcessor.hpp` lines 99-100). -/
def fir : Nat → Int := fun j => [1, 6, 15, 20, 15, 6, 1, 0].getD j 0

/-- Superchunks in which channel 0 has the samples `xs` (a multiple of twelve) and every other channel
the constant 100. -/
def fill (xs : List Int) : List (Nat → Int) :=
  (List.range (xs.length / 12)).map fun k => fun a =>
    if a % 16 = 0 ∧ a < 192 then xs.getD (12 * k + a / 16) 100 else 100

theorem fill_range {xs : List Int} (h : ∀ y ∈ xs, 0 ≤ y ∧ y ≤ 4095) : ∀ i ∈ fill xs, TwelveBit i := by
  intro i hi a
  unfold fill at hi
  rw [List.mem_map] at hi
  obtain ⟨k, _, rfl⟩ := hi
  dsimp only
  split
  · rw [List.getD_eq_getElem?_getD]
    cases e : xs[12 * k + a / 16]? with
    | none => simp
    | some y => exact h y (List.mem_of_getElem? e)
  · omega

theorem fill_length (xs : List Int) : (fill xs).length = xs.length / 12 := by simp [fill]

theorem range_map_getD (xs : List Int) (n : Nat) (h : xs.length = n) :
    (List.range n).map (fun j => xs.getD j 100) = xs := by
  apply List.ext_getElem
  · simp [h]
  · intro i h1 h2
    simp [List.getD_eq_getElem?_getD, h2]

theorem range_twelve (f : Nat → Int) (n : Nat) :
    ((List.range n).flatMap fun k => (List.range 12).map fun t => f (12 * k + t))
      = (List.range (12 * n)).map f := by
  induction n with
  | zero => rfl
  | succ n ih =>
    rw [List.range_succ (n := n), List.flatMap_append, ih, Nat.mul_succ, List.range_add, List.map_append,
      List.map_map]
    simp

theorem fill_stream {xs : List Int} (h : xs.length % 12 = 0) : chanStream (fill xs) 0 = xs := by
  unfold chanStream fill
  rw [List.flatMap_map]
  have e : ∀ k, chanSamples (fun a => if a % 16 = 0 ∧ a < 192 then xs.getD (12 * k + a / 16) 100 else 100) 0
      = (List.range 12).map fun t => xs.getD (12 * k + t) 100 := by
    intro k
    unfold chanSamples
    apply List.map_congr_left
    intro t ht
    have ht : t < 12 := by simpa using ht
    dsimp only
    rw [if_pos (by omega)]
    congr 1
    omega
  rw [show (fun k => chanSamples (fun a => if a % 16 = 0 ∧ a < 192 then xs.getD (12 * k + a / 16) 100 else 100) 0)
      = fun k => (List.range 12).map fun t => xs.getD (12 * k + t) 100 from funext e,
    range_twelve (fun j => xs.getD j 100), range_map_getD xs _ (by omega)]

theorem fill_ped {x : Int} {xs : List Int} (h : 12 ≤ (x :: xs).length) : startPed (fill (x :: xs)) 0 = x := by
  unfold startPed fill
  obtain ⟨m, hm⟩ : ∃ m, (x :: xs).length / 12 = m + 1 := ⟨(x :: xs).length / 12 - 1, by omega⟩
  rw [hm, List.range_succ_eq_map]
  simp

/-- A hit buffer. -/
def freshBuf : List Nat := List.replicate bufEntries 0

theorem freshBuf_length : freshBuf.length = bufEntries := List.length_replicate ..

/-- A pulse on a flat channel: two superchunks. -/
def pulse : List Int := List.replicate 12 100 ++ [100, 160, 300, 160] ++ List.replicate 8 100

theorem pulse_range : ∀ y ∈ pulse, 0 ≤ y ∧ y ≤ 4095 := by decide

/-- Run of the vectorised hit finder on the samples of channel 0. -/
theorem run_fill {x : Int} {xs : List Int} (h12 : (x :: xs).length % 12 = 0)
    (hr : ∀ y ∈ x :: xs, 0 ≤ y ∧ y ≤ 4095) (hl : (x :: xs).length ≤ 65536) :
    ∃ out, processor fir freshBuf (fill (x :: xs)) = .ok out
      ∧ absHits 0 0 out = charged (laneRun fir 0 0 (Ped.start x) HitSt.start (x :: xs)).2
      ∧ hitsBetween fir x (x :: xs) 0 0 (x :: xs).length
        = (laneRun fir 0 0 (Ped.start x) HitSt.start (x :: xs)).2 := by
  obtain ⟨out, e, _, h⟩ := run_all (taps := fir) rfl freshBuf_length (fill_range hr)
  have hx := hr x (by simp)
  have b := between_lane fir hx.1 hx.2 hr hl
  refine ⟨out, e, ?_, b.symm⟩
  have hle : 12 ≤ (x :: xs).length := by
    rw [List.length_cons] at h12 ⊢; omega
  rw [h 0 (by omega), fill_stream h12, fill_ped hle, fill_length, b]
  congr 2
  omega

theorem naive_fill {x : Int} {xs : List Int} (h12 : (x :: xs).length % 12 = 0)
    (hl : (x :: xs).length ≤ 65536) :
    absHits 0 0 (naiveAll fir (NInfo.start ((fill (x :: xs)).headD fun _ => 0)) (fill (x :: xs)))
      = (naiveRun fir 0 0 (Ped.start x) HitSt.start (x :: xs)).2 := by
  have hle : 12 ≤ (x :: xs).length := by
    rw [List.length_cons] at h12 ⊢; omega
  have e := naive_abs fir 0 (by omega) (fill (x :: xs)) 0
    (NInfo.start ((fill (x :: xs)).headD fun _ => 0)) (by decide : 0 < 8) (by rw [fill_length]; omega)
  rw [e, fill_stream h12]
  have : (NInfo.start ((fill (x :: xs)).headD fun _ => 0)).ped 0 = Ped.start x := by
    show Ped.start (startPed (fill (x :: xs)) 0) = _
    rw [fill_ped hle]
  rw [this]
  rfl

/-! ## C32: tracking stays in range -/

theorem naive_ped_lane (taps : Nat → Int) (xs : List Int) : ∀ abs t t' p h h',
    (naiveRun taps abs t p h xs).1.1 = (laneRun taps abs t' p h' xs).1.1 := by
  induction xs with
  | nil => intros; rfl
  | cons x xs ih => intro abs t t' p h h'; simp only [naiveRun, laneRun]; exact ih _ _ _ _ _ _

/-- The range of the estimates. -/
def Est.InRange (e : Est) : Prop :=
  (0 ≤ e.med ∧ e.med ≤ 4095) ∧ (-3 ≤ e.q25 ∧ e.q25 ≤ 4095) ∧ (0 ≤ e.q75 ∧ e.q75 ≤ 4098)
    ∧ e.q25 ≤ e.q75
    ∧ (-10 ≤ e.acc ∧ e.acc ≤ 10) ∧ (-10 ≤ e.acc25 ∧ e.acc25 ≤ 10) ∧ (-10 ≤ e.acc75 ∧ e.acc75 ≤ 10)

theorem good_range {p : Ped} (g : Good p) : p.est.InRange :=
  ⟨g.med, g.q25, g.q75, g.order, g.acc, g.acc25, g.acc75⟩

/-- C32, scalar code: after any number of 12-bit samples the estimates and accumulators are those of
the exact tracking with unbounded integers (no 16-bit operation wrapped), and they are in range. -/
theorem C32_scalar_tracking (taps : Nat → Int) (ped : Int) (h0 : 0 ≤ ped) (h1 : ped ≤ 4095) (xs : List Int)
    (hx : ∀ y ∈ xs, 0 ≤ y ∧ y ≤ 4095) :
    (naiveRun taps 0 0 (Ped.start ped) HitSt.start xs).1.1.est = exactEst ped xs
      ∧ (exactEst ped xs).InRange := by
  have inv : ∀ (ys pre : List Int) (t : Nat) (p : Ped) (h : HitSt), Inv taps ped (pre ++ ys) pre.length p h →
      (∀ y ∈ ys, 0 ≤ y ∧ y ≤ 4095) →
      (laneRun taps (pre.length % 8) t p h ys).1.1.est = exactEst ped (pre ++ ys)
        ∧ (exactEst ped (pre ++ ys)).InRange := by
    intro ys
    induction ys with
    | nil =>
      intro pre t p h i _
      have e := i.est
      rw [List.append_nil, List.take_length] at e
      rw [List.append_nil]
      exact ⟨e, e ▸ good_range i.good⟩
    | cons y ys ih =>
      intro pre t p h i hy
      have hx : (pre ++ y :: ys)[pre.length]? = some y := by simp
      have s := (hit_step i hx (hy y (by simp)).1 (hy y (by simp)).2 t).1
      have el : pre ++ y :: ys = (pre ++ [y]) ++ ys := by simp
      have ll : (pre ++ [y]).length = pre.length + 1 := by simp
      have := ih (pre ++ [y]) (t + 1) _ _ (by rw [← el, ll]; exact s) (fun z hz => hy z (by simp [hz]))
      rw [← el, ll, show (pre.length + 1) % 8 = (pre.length % 8 + 1) % 8 by omega] at this
      exact this
  rw [naive_ped_lane taps xs 0 0 0 _ _ HitSt.start]
  exact inv xs [] 0 _ _ (inv_start taps h0 h1 _) hx

/-- State of the vectorised hit finder after the superchunks `ins`. -/
def avxState (taps : Nat → Int) : VInfo → List (Nat → Int) → VInfo
  | v, [] => v
  | v, i :: ins => avxState taps (avxWindow taps v i 12).1 ins

/-- C32, vectorised code: the same for every channel after any number of superchunks. -/
theorem C32_vector_tracking (taps : Nat → Int) (h7 : taps 7 = 0) (i0 : Nat → Int) (h0 : TwelveBit i0)
    (ins : List (Nat → Int)) (hi : ∀ i ∈ ins, TwelveBit i) (c : Nat) (hc : c < 96) :
    ((avxState taps (VInfo.start i0) ins).chan c).1.est = exactEst (i0 c) (chanStream ins c)
      ∧ (exactEst (i0 c) (chanStream ins c)).InRange := by
  have gen : ∀ (ins done : List (Nat → Int)) (v : VInfo), v.Ok → v.abs = (12 * done.length) % 8 →
      (∀ i ∈ ins, TwelveBit i) →
      Inv taps (i0 c) (chanStream (done ++ ins) c) (12 * done.length) (v.chan c).1 (v.chan c).2 →
      Inv taps (i0 c) (chanStream (done ++ ins) c) (12 * (done ++ ins).length)
        ((avxState taps v ins).chan c).1 ((avxState taps v ins).chan c).2 := by
    intro ins
    induction ins with
    | nil =>
      intro done v _ _ _ h
      have := h
      rw [List.append_nil] at this ⊢
      exact this
    | cons input ins ih =>
      intro done v hv ha hi hinv
      obtain ⟨w1, w2, w3⟩ := window_channel h7 hv (hi input (by simp)) 12 hc
      have es : chanStream (done ++ input :: ins) c
          = chanStream done c ++ chanSamples input c ++ chanStream ins c := by
        simp [chanStream]
      have il := hinv
      have hl := chanStream_length done c
      rw [es, ← hl] at il
      have r := (@lane_run taps (i0 c) (chanSamples input c) (chanStream done c) (chanStream ins c)
        (v.chan c).1 (v.chan c).2 0 il (chanSamples_range (hi input (by simp)) c) (Nat.zero_le _)
        (by rw [chanSamples_length]; omega)).1
      rw [chanSamples_length, hl, ← es, ← ha] at r
      rw [chanSamples_eq] at w2
      rw [← w2] at r
      have e : done ++ [input] ++ ins = done ++ input :: ins := by simp
      have := ih (done ++ [input]) (avxWindow taps v input 12).1 w3
        (by show (v.abs + 12) % 8 = _; rw [ha, List.length_append, List.length_singleton]; omega)
        (fun i hi' => hi i (by simp [hi']))
        (by
          rw [e]
          have : 12 * (done ++ [input]).length = 12 * done.length + 12 := by simp; omega
          rw [this]; exact r)
      rw [e] at this
      exact this
  have g := gen ins [] (VInfo.start i0) (start_ok h0) rfl hi
    (by rw [start_chan]; exact inv_start taps (h0 c).1 (h0 c).2 _)
  have e := g.est
  have hl : 12 * ([] ++ ins).length = (chanStream ([] ++ ins) c).length := (chanStream_length _ c).symm
  rw [hl, List.take_length] at e
  exact ⟨e, by have := good_range g.good; rw [e] at this; exact this⟩

/-- The tracking moves: after twelve samples one above the pedestal the median has followed. -/
example : (exactEst 100 (List.replicate 12 101)) = ⟨101, 97, 102, 0, 0, 0⟩ := by decide
example : (naiveRun fir 0 0 (Ped.start 100) HitSt.start (List.replicate 12 101)).1.1.est
    = exactEst 100 (List.replicate 12 101) :=
  (C32_scalar_tracking fir 100 (by decide) (by decide) _ (by decide)).1
example : ((avxState fir (VInfo.start fun _ => 100) (fill pulse)).chan 0).1.est
    = exactEst 100 (chanStream (fill pulse) 0) :=
  (C32_vector_tracking fir rfl _ (fun _ => by omega) _ (fill_range pulse_range) 0 (by decide)).1

/-! ## C33: vectorised and scalar version -/

/-- C33 where it holds: on a channel where at every sample the interquartile range is at most 102 or
the filter output at most 32640, and no run is longer than 32767 samples, both versions report the
same hits, except for hits with charge zero, which only the scalar version reports. -/
theorem C33_agreement_partial (taps : Nat → Int) (h7 : taps 7 = 0) (old : List Nat)
    (ho : old.length = bufEntries) (ins : List (Nat → Int)) (hi : ∀ i ∈ ins, TwelveBit i) :
    ∃ out, processor taps old ins = .ok out ∧ out.length = ins.length
      ∧ ∀ c, c < 96 → SameRegion taps (startPed ins c) (chanStream ins c) →
        ∀ (k : Nat) (hits hits' : List (Nat × Hit)), out[k]? = some hits →
          (naiveAll taps (NInfo.start (ins.headD fun _ => 0)) ins)[k]? = some hits' →
          hitsOf c hits = (hitsOf c hits').filter fun h => h.charge != 0 := by
  obtain ⟨out, e, l, h⟩ := run_hits h7 ho hi
  refine ⟨out, e, l, fun c hc s k hits hits' hk hk' => ?_⟩
  rw [h c hc k hits hk]
  cases ins with
  | nil => simp [naiveAll] at hk'
  | cons i0 ins =>
    have h0 := hi i0 (by simp)
    have n := naive_all i0 c hc (i0 :: ins) [] (NInfo.start i0) rfl hi s
      (inv_start taps (h0 c).1 (h0 c).2 _) k hits' (by simpa using hk')
    rw [n]
    simp [startPed, charged]

/-- The pulse is in that region (here shown for the run lengths), and both report the hit. -/
example : ∃ out, processor fir freshBuf (fill pulse) = .ok out ∧ absHits 0 0 out = [⟨22, 298, 5⟩]
    ∧ absHits 0 0 (naiveAll fir (NInfo.start ((fill pulse).headD fun _ => 0)) (fill pulse))
      = [⟨22, 298, 5⟩] := by
  obtain ⟨out, e, h, _⟩ := run_fill (x := 100) (xs := pulse.tail) (by decide) (by decide) (by decide)
  refine ⟨out, e, ?_, ?_⟩
  · rw [h]; decide +kernel
  · rw [show pulse = 100 :: pulse.tail from rfl, naive_fill (by decide) (by decide)]; decide +kernel

/-- A quiet channel whose quartile estimates meet, then a sample one above: the filter output stays
below one count. -/
def faint : List Int :=
  ([0] ++ List.replicate 11 (-2) ++ List.replicate 11 0 ++ [-1] ++ List.replicate 12 1
    ++ List.replicate 10 (-1) ++ [0] ++ List.replicate 11 (-1) ++ List.replicate 11 0
    ++ List.replicate 11 (-1) ++ List.replicate 11 (-7) ++ List.replicate 11 (-1)
    ++ List.replicate 7 (-1) ++ [0] ++ List.replicate 10 (-1)).map (fun x => x + 100)

theorem faint_range : ∀ y ∈ faint, 0 ≤ y ∧ y ≤ 4095 := by decide

theorem faint_lane : (laneRun fir 0 0 (Ped.start 100) HitSt.start faint).2 = [⟨109, 2, 8⟩, ⟨118, 0, 7⟩] := by
  decide +kernel

theorem faint_naive : (naiveRun fir 0 0 (Ped.start 100) HitSt.start faint).2 = [⟨109, 2, 8⟩, ⟨118, 0, 7⟩] := by
  decide +kernel

theorem faint_cons : faint = 100 :: faint.tail := by decide

/-- C33 is false: a hit with charge zero is reported by the scalar version only. -/
theorem C33_zero_charge_counterexample :
    ∃ out, processor fir freshBuf (fill faint) = .ok out ∧ absHits 0 0 out = [⟨109, 2, 8⟩]
      ∧ absHits 0 0 (naiveAll fir (NInfo.start ((fill faint).headD fun _ => 0)) (fill faint))
        = [⟨109, 2, 8⟩, ⟨118, 0, 7⟩] := by
  obtain ⟨out, e, h, _⟩ := run_fill (x := 100) (xs := faint.tail) (by decide) (faint_cons ▸ faint_range)
    (by decide)
  rw [← faint_cons] at e h
  refine ⟨out, e, ?_, ?_⟩
  · rw [h, faint_lane]; decide
  · have n := naive_fill (x := 100) (xs := faint.tail) (by decide) (by decide)
    rw [← faint_cons] at n
    rw [n, faint_naive]

/-! ### A step from 0 to full scale -/

/-- The state `n` samples after the step. -/
def stepPed (n : Nat) : Ped :=
  ⟨(n / 11 : Nat), -3, 3 + (n / 11 : Nat), (n % 11 : Nat), 0, (n % 11 : Nat), List.replicate 8 511⟩

theorem step_good {n : Nat} (h : n / 11 ≤ 3584) : Good (stepPed n) := by
  constructor <;> simp only [stepPed] <;> (try omega)
  simp

theorem est_fields {q r : Ped} (h : q.est = r.est) : q.med = r.med ∧ q.q25 = r.q25 ∧ q.q75 = r.q75
    ∧ q.acc = r.acc ∧ q.acc25 = r.acc25 ∧ q.acc75 = r.acc75 := by
  cases q; cases r
  simpa [Ped.est] using h

theorem ped_prev (taps : Nat → Int) (abs : Nat) (p : Ped) (x : Int) : (naivePed taps abs p x).1.prev
    = p.prev.set (abs % 8) (min (w16 (w16 x - (naivePed taps abs p x).1.med)) adcMax) := rfl

theorem cap_residual (m : Nat) (h1 : m ≤ 3584) : min (w16 (w16 4095 - (m : Int))) adcMax = 511 := by
  rw [w16_id (x := 4095) (by decide) (by decide), w16_id (by omega) (by omega)]
  unfold adcMax; omega

theorem ped_filt (taps : Nat → Int) (abs : Nat) (p : Ped) (x : Int) :
    (naivePed taps abs p x).2.1 = naiveFilter taps p.prev abs := rfl

theorem track_up (m s a : Int) (h : m < s) (ha : 0 ≤ a) (ha' : a ≤ 10) :
    exactTrack m s a = if a = 10 then (m + 1, 0) else (m, a + 1) := by
  unfold exactTrack
  dsimp only
  rw [if_pos h]
  by_cases c : a = 10
  · rw [if_pos (by omega), if_pos c]
  · rw [if_neg (by omega), if_neg (by omega), if_neg c]

theorem step_est {n : Nat} (h : (n + 1) / 11 ≤ 3584) : (stepPed n).est.next 4095 = (stepPed (n + 1)).est := by
  have key : ∀ a b : Nat, a < 11 → b ≤ 3584 →
      Est.next ⟨(b : Int), -3, 3 + (b : Int), (a : Int), 0, (a : Int)⟩ 4095
        = if a = 10 then ⟨(b : Int) + 1, -3, 3 + (b : Int) + 1, 0, 0, 0⟩
          else ⟨(b : Int), -3, 3 + (b : Int), (a : Int) + 1, 0, (a : Int) + 1⟩ := by
    intro a b ha hb
    unfold Est.next
    dsimp only
    rw [if_neg (by omega), if_pos (by omega), track_up _ _ _ (by omega) (by omega) (by omega),
      track_up _ _ _ (by omega) (by omega) (by omega)]
    by_cases c : a = 10
    · subst c; rfl
    · have c' : ¬ (a : Int) = 10 := by omega
      rw [if_neg c', if_neg c', if_neg c]
  show Est.next ⟨((n / 11 : Nat) : Int), -3, 3 + ((n / 11 : Nat) : Int), ((n % 11 : Nat) : Int), 0, ((n % 11 : Nat) : Int)⟩ 4095
    = ⟨(((n + 1) / 11 : Nat) : Int), -3, 3 + (((n + 1) / 11 : Nat) : Int), (((n + 1) % 11 : Nat) : Int), 0,
        (((n + 1) % 11 : Nat) : Int)⟩
  rw [key _ _ (by omega) (by omega)]
  by_cases c : n % 11 = 10
  · have a : (n + 1) / 11 = n / 11 + 1 := by omega
    have b : (n + 1) % 11 = 0 := by omega
    rw [if_pos c, a, b, Int.natCast_add, Int.natCast_one, ← Int.add_assoc]
    rfl
  · have a : (n + 1) / 11 = n / 11 := by omega
    have b : (n + 1) % 11 = n % 11 + 1 := by omega
    rw [if_neg c, a, b, Int.natCast_add, Int.natCast_one]

theorem step_filter {n abs : Nat} : naiveFilter fir (stepPed n).prev abs = 32704 := by
  rw [naiveFilter_eq]
  have : ∀ j, (stepPed n).prev.getD ((j + abs) % 8) 0 = 511 := by
    intro j
    show (List.replicate 8 (511 : Int)).getD _ 0 = 511
    rw [List.getD_eq_getElem?_getD, List.getElem?_replicate, if_pos (by omega)]; rfl
  rw [this, this, this, this, this, this, this, this]
  decide

theorem step_next {n abs : Nat} (h : (n + 1) / 11 ≤ 3584) :
    naivePed fir abs (stepPed n) 4095 = (stepPed (n + 1), 32704, 6 + (((n + 1) / 11 : Nat) : Int)) := by
  have g := step_good (n := n) (by omega)
  have e := est_step g fir abs (x := 4095) (by decide) (by decide)
  rw [step_est h] at e
  have hf := ped_filt fir abs (stepPed n) 4095
  rw [step_filter] at hf
  have s := (sigma_eq (taps := fir) (abs := abs) g (x := 4095) (by decide) (by decide)).1
  have pp := ped_prev fir abs (stepPed n) 4095
  obtain ⟨f1, f2, f3, f4, f5, f6⟩ := est_fields e
  generalize naivePed fir abs (stepPed n) 4095 = r at *
  obtain ⟨q, f, sg⟩ := r
  dsimp only at *
  rw [f2, f3] at s
  rw [f1] at pp
  have pr : q.prev = List.replicate 8 511 := by
    rw [pp]
    show (List.replicate 8 (511 : Int)).set (abs % 8) (min (w16 (w16 4095 - (((n + 1) / 11 : Nat) : Int))) adcMax) = _
    rw [cap_residual ((n + 1) / 11) h]
    apply List.ext_getElem
    · simp
    · intro i h1 h2
      rw [List.getElem_set, List.getElem_replicate, ite_self]
  rw [hf, s]
  have fin : q = stepPed (n + 1) := by
    cases q
    dsimp only at f1 f2 f3 f4 f5 f6 pr
    rw [f1, f2, f3, f4, f5, f6, pr]
    rfl
  rw [fin]
  congr 2
  show 3 + (((n + 1) / 11 : Nat) : Int) - -3 = _
  omega

/-- While the step lasts the vectorised version stays over threshold and reports nothing. -/
theorem step_lane (m : Nat) : ∀ (n abs t : Nat) (a b : Int), (n + m) / 11 ≤ 3584 →
    0 ≤ a → 0 ≤ b →
    laneRun fir abs t (stepPed n) ⟨true, min 32767 a, min 32767 b⟩ (List.replicate m 4095)
      = ((stepPed (n + m), ⟨true, min 32767 (a + 511 * (m : Int)), min 32767 (b + (m : Int))⟩), []) := by
  induction m with
  | zero => intro n abs t a b _ _ _; simp [laneRun]
  | succ m ih =>
    intro n abs t a b hn ha hb
    rw [List.replicate_succ]
    simp only [laneRun]
    rw [step_next (by omega)]
    dsimp only
    have hl : laneHit t ⟨true, min 32767 a, min 32767 b⟩ 32704 (min (6 + (((n + 1) / 11 : Nat) : Int)) 102)
        = (⟨true, min 32767 (a + 511), min 32767 (b + 1)⟩, []) := by
      have d : decide (320 * min (6 + (((n + 1) / 11 : Nat) : Int)) 102 < 32704) = true := by
        rw [decide_eq_true_eq]; omega
      have c1 : sat16 (min 32767 a + 32704 / 64) = min 32767 (a + 511) := by
        unfold sat16; omega
      have c2 : sat16 (min 32767 b + 1) = min 32767 (b + 1) := by
        unfold sat16; omega
      unfold laneHit
      dsimp only
      rw [d]
      simp only [Bool.not_true, Bool.and_false, if_true, Bool.false_eq_true, if_false]
      rw [c1, c2]
    rw [hl, ih (n + 1) ((abs + 1) % 8) (t + 1) (a + 511) (b + 1) (by omega) (by omega) (by omega)]
    dsimp only
    rw [show n + 1 + m = n + (m + 1) by omega,
      show a + 511 + 511 * (m : Int) = a + 511 * ((m + 1 : Nat) : Int) by omega,
      show b + 1 + (m : Int) = b + ((m + 1 : Nat) : Int) by omega]
    rfl

/-- The scalar version does the same while the interquartile range is at most 102. -/
theorem step_naive (m : Nat) : ∀ (n abs t : Nat) (h : HitSt), abs < 8 → (n + m) / 11 ≤ 96 → h.over = true →
    ∃ h', naiveRun fir abs t (stepPed n) h (List.replicate m 4095) = ((stepPed (n + m), h'), [])
      ∧ h'.over = true := by
  induction m with
  | zero => intro n abs t h _ _ ho; exact ⟨h, rfl, ho⟩
  | succ m ih =>
    intro n abs t h ha hn ho
    rw [List.replicate_succ]
    simp only [naiveRun]
    rw [step_next (by omega)]
    dsimp only
    have hl : naiveHit t h 32704 (6 + ((n + 1) / 11 : Nat))
        = (⟨true, w16 (min (h.charge + 32704 / 64) 32767), w16 (h.tover + 1)⟩, []) := by
      unfold naiveHit
      have : decide (5 * (6 + (((n + 1) / 11 : Nat) : Int)) * multiplier < 32704) = true := by
        rw [decide_eq_true_eq]; unfold multiplier; omega
      rw [this]; simp
    rw [hl]
    obtain ⟨h', e, o⟩ := ih (n + 1) ((abs + 1) % 8) (t + 1)
      ⟨true, w16 (min (h.charge + 32704 / 64) 32767), w16 (h.tover + 1)⟩ (by omega) (by omega) rfl
    refine ⟨h', ?_, o⟩
    rw [e, show n + 1 + m = n + (m + 1) by omega]
    rfl

/-- The first fourteen samples of the step. -/
theorem step_begin :
    laneRun fir 0 0 (Ped.start 0) HitSt.start (0 :: List.replicate 13 4095)
        = ((stepPed 13, ⟨true, 4078, 10⟩), [])
      ∧ naiveRun fir 0 0 (Ped.start 0) HitSt.start (0 :: List.replicate 13 4095)
        = ((stepPed 13, ⟨true, 4078, 10⟩), []) := by
  decide +kernel

theorem laneRun_append (taps : Nat → Int) (xs : List Int) : ∀ (ys : List Int) (abs t : Nat) (p : Ped)
    (h : HitSt), abs < 8 →
    laneRun taps abs t p h (xs ++ ys)
      = ((laneRun taps ((abs + xs.length) % 8) (t + xs.length) (laneRun taps abs t p h xs).1.1
            (laneRun taps abs t p h xs).1.2 ys).1,
          (laneRun taps abs t p h xs).2 ++ (laneRun taps ((abs + xs.length) % 8) (t + xs.length)
            (laneRun taps abs t p h xs).1.1 (laneRun taps abs t p h xs).1.2 ys).2) := by
  induction xs with
  | nil => intro ys abs t p h ha; simp [laneRun, Nat.mod_eq_of_lt ha]
  | cons x xs ih =>
    intro ys abs t p h ha
    have e1 : ((abs + 1) % 8 + xs.length) % 8 = (abs + (x :: xs).length) % 8 := by
      rw [List.length_cons]; omega
    have e2 : t + 1 + xs.length = t + (x :: xs).length := by rw [List.length_cons]; omega
    rw [List.cons_append]
    simp only [laneRun]
    rw [ih ys ((abs + 1) % 8) (t + 1) _ _ (by omega), e1, e2]
    simp only [List.append_assoc]

/-- A step from 0 to full scale lasting `m + 13` samples. -/
def step (m : Nat) : List Int := (0 :: List.replicate 13 4095) ++ List.replicate m 4095

theorem step_cons (m : Nat) : step m = 0 :: (List.replicate 13 4095 ++ List.replicate m 4095) := rfl

theorem step_length (m : Nat) : (step m).length = 14 + m := by simp [step]; omega

theorem step_range (m : Nat) : ∀ y ∈ step m, 0 ≤ y ∧ y ≤ 4095 := by
  intro y hy
  unfold step at hy
  rw [List.mem_append, List.mem_cons, List.mem_replicate, List.mem_replicate] at hy
  rcases hy with (h | h) | h
  · omega
  · omega
  · omega

theorem step_lane_all (m : Nat) (h : (13 + m) / 11 ≤ 3584) :
    laneRun fir 0 0 (Ped.start 0) HitSt.start (step m)
      = ((stepPed (13 + m), ⟨true, min 32767 (4078 + 511 * (m : Int)), min 32767 (10 + (m : Int))⟩), []) := by
  unfold step
  rw [laneRun_append _ _ _ _ _ _ _ (by decide), step_begin.1]
  have := step_lane m 13 ((0 + (0 :: List.replicate 13 (4095 : Int)).length) % 8)
    (0 + (0 :: List.replicate 13 (4095 : Int)).length) 4078 10 h (by decide) (by decide)
  rw [show (⟨true, min 32767 4078, min 32767 10⟩ : HitSt) = ⟨true, 4078, 10⟩ from by decide] at this
  dsimp only
  rw [this]
  rfl

/-- C33 is false: with an interquartile range above 102 the vectorised version clamps the threshold and
the scalar version does not.  After a step to full scale the scalar version reports a hit that the
vectorised version does not report. -/
theorem C33_wide_counterexample :
    ∃ out, processor fir freshBuf (fill (step 1066)) = .ok out ∧ absHits 0 0 out = []
      ∧ absHits 0 0 (naiveAll fir (NInfo.start ((fill (step 1066)).headD fun _ => 0)) (fill (step 1066)))
        ≠ [] := by
  have hl := step_length 1066
  have hr := step_range 1066
  have hc := step_cons 1066
  obtain ⟨out, e, h, _⟩ := run_fill (x := 0) (xs := List.replicate 13 4095 ++ List.replicate 1066 4095)
    (by rw [← hc, hl]) (by rw [← hc]; exact hr) (by rw [← hc, hl]; decide)
  have n := naive_fill (x := 0) (xs := List.replicate 13 4095 ++ List.replicate 1066 4095)
    (by rw [← hc, hl]) (by rw [← hc, hl]; decide)
  rw [← hc] at e h n
  refine ⟨out, e, ?_, ?_⟩
  · rw [h, step_lane_all 1066 (by decide)]; rfl
  · rw [n]
    have es : step 1066 = (0 :: List.replicate 13 4095) ++ (List.replicate 1053 4095
        ++ (4095 :: List.replicate 12 4095)) := by
      have : List.replicate 1053 (4095 : Int) ++ (4095 :: List.replicate 12 4095)
          = List.replicate (1053 + 13) 4095 := by
        rw [← List.replicate_append_replicate]; rfl
      rw [this]; rfl
    rw [es, naiveRun_append _ _ _ _ _ _ _ (by decide), step_begin.2]
    dsimp only
    obtain ⟨h', e', o'⟩ := step_naive 1053 13 ((0 + (0 :: List.replicate 13 (4095 : Int)).length) % 8)
      (0 + (0 :: List.replicate 13 (4095 : Int)).length) ⟨true, 4078, 10⟩ (by decide) (by decide) rfl
    rw [naiveRun_append _ _ _ _ _ _ _ (by decide), e']
    dsimp only
    simp only [naiveRun]
    rw [step_next (by decide)]
    dsimp only
    have hit : ∀ t, (naiveHit t h' 32704 (6 + (((13 + 1053 + 1) / 11 : Nat) : Int))).2 ≠ [] := by
      intro t
      have : decide (5 * (6 + (((13 + 1053 + 1) / 11 : Nat) : Int)) * multiplier < 32704) = false := by decide
      unfold naiveHit
      dsimp only
      rw [this]
      simp [o']
    intro hn
    have := hit (0 + (0 :: List.replicate 13 (4095 : Int)).length + (List.replicate 1053 (4095 : Int)).length)
    simp only [List.append_eq_nil_iff] at hn
    exact this hn.2.2.1

/-! ## C34: independence of the channels -/

/-- C34 where it holds: the hits of a channel are a function of its own samples for the first sixteen
channels, and for the others of its samples and of entry `c` of the first array, which is *not* one of
its samples. -/
theorem C34_independent_partial (taps : Nat → Int) (h7 : taps 7 = 0) (old old' : List Nat)
    (ho : old.length = bufEntries) (ho' : old'.length = bufEntries) (ins ins' : List (Nat → Int))
    (hi : ∀ i ∈ ins, TwelveBit i) (hi' : ∀ i ∈ ins', TwelveBit i) :
    ∃ out out', processor taps old ins = .ok out ∧ processor taps old' ins' = .ok out'
      ∧ ∀ c, c < 96 → chanStream ins c = chanStream ins' c →
        (c < 16 ∨ startPed ins c = startPed ins' c) →
        out.map (hitsOf c) = out'.map (hitsOf c) := by
  obtain ⟨out, e, l, h⟩ := run_hits h7 ho hi
  obtain ⟨out', e', l', h'⟩ := run_hits h7 ho' hi'
  refine ⟨out, out', e, e', fun c hc hs hp => ?_⟩
  have hll : out.length = out'.length := by
    have := congrArg List.length hs
    rw [chanStream_length, chanStream_length] at this
    omega
  have hped : startPed ins c = startPed ins' c := by
    rcases hp with hp | hp
    · have first : ∀ l : List (Nat → Int), startPed l c = (chanStream l c).headD 0 := by
        intro l
        cases l with
        | nil => rfl
        | cons a l =>
          show a c = _
          unfold chanStream chanSamples
          rw [List.flatMap_cons, List.range_succ_eq_map (n := 11)]
          simp only [List.map_cons, List.cons_append, List.headD_cons]
          congr 1
          omega
      rw [first, first, hs]
    · exact hp
  apply List.ext_getElem?
  intro k
  rw [List.getElem?_map, List.getElem?_map]
  cases hk : out[k]? with
  | none =>
    rw [List.getElem?_eq_none_iff] at hk
    rw [List.getElem?_eq_none_iff.mpr (by omega)]
  | some hits =>
    have hlt : k < out.length := (List.getElem?_eq_some_iff.mp hk).1
    have hk' : out'[k]? = some out'[k] := List.getElem?_eq_getElem (by omega)
    rw [hk']
    simp only [Option.map_some]
    rw [h c hc k hits hk, h' c hc k _ hk', hs, hped]

/-- Two runs that differ on other channels: the pulse on channel 0 does not matter for channel 3. -/
example : ∃ out out', processor fir freshBuf (fill pulse) = .ok out
    ∧ processor fir freshBuf [fun _ => 100, fun _ => 100] = .ok out'
    ∧ out.map (hitsOf 3) = out'.map (hitsOf 3) := by
  obtain ⟨out, out', e, e', h⟩ := C34_independent_partial fir rfl freshBuf freshBuf freshBuf_length
    freshBuf_length (fill pulse) [fun _ => 100, fun _ => 100] (fill_range pulse_range)
    (by intro i hi a; simp at hi; rw [hi]; show (0 : Int) ≤ 100 ∧ (100 : Int) ≤ 4095; decide)
  exact ⟨out, out', e, e', h 3 (by decide) (by decide) (Or.inl (by decide))⟩

/-- One superchunk in which every channel is constant, except that channel 0 is lower at the second
sample. -/
def dip : Nat → Int := fun a => if a = 16 then 68 else 100

/-- C34 is false: channel 16 has the same samples in both superchunks, but the start value of its
pedestal is taken from the second sample of channel 0, and a hit appears. -/
theorem C34_pedestal_counterexample :
    chanStream [fun _ => 100] 16 = chanStream [dip] 16
      ∧ ∃ out out', processor fir freshBuf [fun _ => 100] = .ok out ∧ processor fir freshBuf [dip] = .ok out'
        ∧ absHits 16 0 out = [] ∧ absHits 16 0 out' = [⟨10, 95, 3⟩] := by
  have h1 : ∀ i ∈ [(fun _ => 100 : Nat → Int)], TwelveBit i := by
    intro i hi a; simp at hi; rw [hi]; show (0 : Int) ≤ 100 ∧ (100 : Int) ≤ 4095; decide
  have h2 : ∀ i ∈ [dip], TwelveBit i := by
    intro i hi a; simp at hi; rw [hi]; unfold dip; split <;> omega
  obtain ⟨out, e, _, h⟩ := run_all (taps := fir) rfl freshBuf_length h1
  obtain ⟨out', e', _, h'⟩ := run_all (taps := fir) rfl freshBuf_length h2
  refine ⟨by decide, out, out', e, e', ?_, ?_⟩
  · rw [h 16 (by decide)]
    have := between_lane fir (ped := 100) (by decide) (by decide) (xs := List.replicate 12 100)
      (by decide) (by decide)
    have e : chanStream [(fun _ => 100 : Nat → Int)] 16 = List.replicate 12 100 := by decide
    rw [e]
    show charged (hitsBetween fir 100 (List.replicate 12 100) 0 0 (List.replicate 12 (100 : Int)).length) = []
    rw [← this]
    decide +kernel
  · rw [h' 16 (by decide)]
    have := between_lane fir (ped := 68) (by decide) (by decide) (xs := List.replicate 12 100)
      (by decide) (by decide)
    have e : chanStream [dip] 16 = List.replicate 12 100 := by decide
    have ep : startPed [dip] 16 = 68 := by decide
    rw [e, ep]
    show charged (hitsBetween fir 68 (List.replicate 12 100) 0 0 (List.replicate 12 (100 : Int)).length) = _
    rw [← this]
    decide +kernel

/-! ## C35: splitting into superchunks -/

/-- C35, vectorised code: processing `12 * k + n` frames in one window gives the same final state and,
on every channel, the same hits as processing the first `12 * k` frames and then the others; the times of
the second part are relative to its start.  This is for every state and every contents, so it extends to
every split at superchunk boundaries. -/
theorem C35_split_vector (taps : Nat → Int) (v : VInfo) (ha : v.abs < 8) (input : Nat → Int) (k n : Nat)
    (rest rest1 rest2 : List Nat) :
    ∃ h h1 h2, decode ((avxWindow taps v input (12 * k + n)).2 ++ rest) = .ok h
      ∧ decode ((avxWindow taps v input (12 * k)).2 ++ rest1) = .ok h1
      ∧ decode ((avxWindow taps (avxWindow taps v input (12 * k)).1 (fun a => input (a + 1152 * k)) n).2
          ++ rest2) = .ok h2
      ∧ (∀ c, hitsOf c h = hitsOf c h1 ++ (hitsOf c h2).map (later (12 * k)))
      ∧ (avxWindow taps v input (12 * k + n)).1
        = (avxWindow taps (avxWindow taps v input (12 * k)).1 (fun a => input (a + 1152 * k)) n).1 :=
  ⟨_, _, _, decode_window _ _ _ _ _, decode_window _ _ _ _ _, decode_window _ _ _ _ _,
    fun c => window_split_hits taps v ha input k n c, window_split_state taps v ha input k n⟩

/-- C35, scalar code. -/
theorem C35_split_scalar (taps : Nat → Int) (v : NInfo) (ha : v.abs < 8) (input : Nat → Int) (k n : Nat) :
    (naiveWindow taps v input (12 * k + n)).1
        = (naiveWindow taps (naiveWindow taps v input (12 * k)).1 (fun a => input (a + 1152 * k)) n).1
      ∧ ∀ c, hitsOf c (naiveWindow taps v input (12 * k + n)).2
        = hitsOf c (naiveWindow taps v input (12 * k)).2
          ++ (hitsOf c (naiveWindow taps (naiveWindow taps v input (12 * k)).1
              (fun a => input (a + 1152 * k)) n).2).map (later (12 * k)) :=
  naive_split taps v ha input k n

/-- The pulse as one array of 24 frames: the hit ends in the second half, at sample 10 of it. -/
def pulseArray : Nat → Int := fun a =>
  if a % 16 = 0 ∧ a % 1152 < 192 then pulse.getD (12 * (a / 1152) + a % 1152 / 16) 100 else 100

example : hitsOf 0 (naiveWindow fir (NInfo.start pulseArray) pulseArray 24).2 = [⟨22, 298, 5⟩]
    ∧ hitsOf 0 (naiveWindow fir (naiveWindow fir (NInfo.start pulseArray) pulseArray 12).1
        (fun a => pulseArray (a + 1152)) 12).2 = [⟨10, 298, 5⟩] := by
  constructor
  · unfold naiveWindow; dsimp only; rw [hitsOf_chans, if_pos (by decide)]; decide +kernel
  · unfold naiveWindow; dsimp only; rw [hitsOf_chans, if_pos (by decide)]; decide +kernel

/-! ## C36: one hit per run -/

/-- C36 where it holds: the hits reported for a channel over a whole run, in samples since its start, are
one for each end of a maximal run of over-threshold samples, in order, at the sample after the run, with
the run length (saturating at 32767) as duration and the sum of the filtered values as charge; hits with
charge zero are left out. -/
theorem C36_runs_partial (taps : Nat → Int) (h7 : taps 7 = 0) (old : List Nat)
    (ho : old.length = bufEntries) (ins : List (Nat → Int)) (hi : ∀ i ∈ ins, TwelveBit i) :
    ∃ out, processor taps old ins = .ok out ∧ out.length = ins.length
      ∧ ∀ c, c < 96 →
        absHits c 0 out
          = (((List.range (12 * ins.length)).filter fun e =>
                ends (overAt taps (startPed ins c) (chanStream ins c)) e).map fun e =>
              hitAt taps (startPed ins c) (chanStream ins c) 0 e).filter fun h => h.charge != 0 := by
  obtain ⟨out, e, l, h⟩ := run_all h7 ho hi
  refine ⟨out, e, l, fun c hc => ?_⟩
  rw [h c hc]
  unfold charged hitsBetween
  simp only [Nat.zero_add]

/-- The pulse: one run of five samples, 17 to 21. -/
example : ∃ out, processor fir freshBuf (fill pulse) = .ok out ∧ absHits 0 0 out = [⟨22, 298, 5⟩]
    ∧ ends (overAt fir 100 pulse) 22 = true ∧ runLen (overAt fir 100 pulse) 22 = 5 := by
  obtain ⟨out, e, h, _⟩ := run_fill (x := 100) (xs := pulse.tail) (by decide) (by decide) (by decide)
  exact ⟨out, e, by rw [h]; decide +kernel, by decide +kernel, by decide +kernel⟩

/-- C36 is false: of the two runs that end, one is not reported, because its charge is less than one
count at every sample. -/
theorem C36_zero_charge_counterexample :
    ∃ out, processor fir freshBuf (fill faint) = .ok out ∧ absHits 0 0 out = [⟨109, 2, 8⟩]
      ∧ ends (overAt fir 100 faint) 118 = true ∧ runLen (overAt fir 100 faint) 118 = 7 := by
  obtain ⟨out, e, h, b⟩ := run_fill (x := 100) (xs := faint.tail) (by decide) (faint_cons ▸ faint_range)
    (by decide)
  rw [← faint_cons] at e h b
  rw [faint_lane] at b h
  have mem : (⟨118, 0, 7⟩ : Hit) ∈ hitsBetween fir 100 faint 0 0 faint.length := by rw [b]; simp
  unfold hitsBetween at mem
  rw [List.mem_map] at mem
  obtain ⟨j, hj, ej⟩ := mem
  rw [List.mem_filter] at hj
  unfold hitAt at ej
  simp only [Hit.mk.injEq, Nat.zero_add, Nat.sub_zero] at ej
  obtain ⟨ej1, _, ej3⟩ := ej
  subst ej1
  refine ⟨out, e, ?_, ?_, ?_⟩
  · rw [h]; decide
  · simpa using hj.2
  · omega

theorem over_stays {over : Nat → Bool} {a b : Nat} (h0 : over a = true)
    (h : ∀ e, a < e → e ≤ b → ends over e = false) : ∀ e, a ≤ e → e ≤ b → over e = true := by
  intro e h1 h2
  induction e with
  | zero => have : a = 0 := by omega
            rw [← this]; exact h0
  | succ e ih =>
    by_cases c : a = e + 1
    · rw [← c]; exact h0
    · have p := ih (by omega) (by omega)
      have q := h (e + 1) (by omega) h2
      unfold ends at q
      simpa [p] using q

theorem runLen_ge {over : Nat → Bool} {a : Nat} (n : Nat) (h : ∀ e, a ≤ e → e < a + n → over e = true) :
    n ≤ runLen over (a + n) := by
  induction n with
  | zero => omega
  | succ n ih =>
    have := ih fun e h1 h2 => h e h1 (by omega)
    rw [← Nat.add_assoc, runLen, h (a + n) (by omega) (by omega), if_pos rfl]
    omega

/-- A long step and its end. -/
def longStep : List Int := step 33010 ++ List.replicate 12 0

/-- C36 is false: a run of more than 32767 samples is reported with duration 32767. -/
theorem C36_long_run_counterexample :
    ∃ out, processor fir freshBuf (fill longStep) = .ok out ∧ absHits 0 0 out = [⟨33026, 32767, 32767⟩]
      ∧ ends (overAt fir 0 longStep) 33026 = true ∧ 33000 < runLen (overAt fir 0 longStep) 33026 := by
  have hl : longStep.length = 33036 := by
    unfold longStep; rw [List.length_append, step_length, List.length_replicate]
  have hc : longStep = 0 :: (List.replicate 13 4095 ++ List.replicate 33010 4095 ++ List.replicate 12 0) := by
    unfold longStep; rw [step_cons]; rfl
  have hr : ∀ y ∈ longStep, 0 ≤ y ∧ y ≤ 4095 := by
    intro y hy
    unfold longStep at hy
    rw [List.mem_append] at hy
    rcases hy with hy | hy
    · exact step_range _ y hy
    · rw [List.mem_replicate] at hy; omega
  obtain ⟨out, e, h, b⟩ := run_fill (x := 0)
    (xs := List.replicate 13 4095 ++ List.replicate 33010 4095 ++ List.replicate 12 0)
    (by rw [← hc, hl]) (by rw [← hc]; exact hr) (by rw [← hc, hl]; decide)
  rw [← hc] at e h b
  have tail : laneRun fir 0 33024 (stepPed 33023) ⟨true, 32767, 32767⟩ (List.replicate 12 0)
      = ((laneRun fir 0 33024 (stepPed 33023) ⟨true, 32767, 32767⟩ (List.replicate 12 0)).1,
          [⟨33026, 32767, 32767⟩]) := by
    decide +kernel
  have run : (laneRun fir 0 0 (Ped.start 0) HitSt.start longStep).2 = [⟨33026, 32767, 32767⟩] := by
    unfold longStep
    rw [laneRun_append _ _ _ _ _ _ _ (by decide), step_lane_all 33010 (by decide), step_length]
    have c1 : min (32767 : Int) (4078 + 511 * ((33010 : Nat) : Int)) = 32767 := by decide
    have c2 : min (32767 : Int) (10 + ((33010 : Nat) : Int)) = 32767 := by decide
    rw [c1, c2]
    dsimp only
    rw [show (0 + (14 + 33010)) % 8 = 0 from rfl, show 0 + (14 + 33010) = 33024 from rfl,
      show 13 + 33010 = 33023 from rfl, tail]
    rfl
  rw [run] at h b
  rw [hl] at b
  have only : ∀ e, e < 33036 → ends (overAt fir 0 longStep) e = true → e = 33026 := by
    intro e he hee
    have mem : hitAt fir 0 longStep 0 (0 + e) ∈ hitsBetween fir 0 longStep 0 0 33036 := by
      unfold hitsBetween
      exact List.mem_map.mpr ⟨e, List.mem_filter.mpr ⟨by simpa using he, by simpa using hee⟩, rfl⟩
    rw [b, List.mem_singleton] at mem
    have := congrArg Hit.time mem
    unfold hitAt at this
    simpa using this
  have atEnd : ends (overAt fir 0 longStep) 33026 = true := by
    have mem : (⟨33026, 32767, 32767⟩ : Hit) ∈ hitsBetween fir 0 longStep 0 0 33036 := by rw [b]; simp
    unfold hitsBetween at mem
    rw [List.mem_map] at mem
    obtain ⟨j, hj, ej⟩ := mem
    rw [List.mem_filter] at hj
    unfold hitAt at ej
    simp only [Hit.mk.injEq, Nat.zero_add, Nat.sub_zero] at ej
    rw [← ej.1]
    simpa using hj.2
  refine ⟨out, e, by rw [h]; rfl, atEnd, ?_⟩
  -- the filter is over threshold from sample 13 on
  have first : overAt fir 0 longStep 13 = true := by
    have i := (@lane_run fir 0 (0 :: List.replicate 13 4095) []
      (List.replicate 33010 4095 ++ List.replicate 12 0) (Ped.start 0) HitSt.start 0
      (inv_start fir (by decide) (by decide) _) (by decide) (Nat.le_refl _) (by decide)).1
    have ov := i.over
    have st : (laneRun fir (([] : List Int).length % 8) 0 (Ped.start 0) HitSt.start (0 :: List.replicate 13 4095)).1.2.over
        = true := by
      show (laneRun fir 0 0 (Ped.start 0) HitSt.start (0 :: List.replicate 13 4095)).1.2.over = true
      rw [step_begin.1]
    rw [st] at ov
    have el : [] ++ 0 :: List.replicate 13 4095 ++ (List.replicate 33010 4095 ++ List.replicate 12 0) = longStep := by
      unfold longStep step
      rw [List.nil_append, List.append_assoc]
    rw [el] at ov
    have ov2 : true = (true && overAt fir 0 longStep 13) := ov
    simpa using ov2.symm
  have stay := over_stays first (b := 33025) (fun e h1 h2 => by
    cases c : ends (overAt fir 0 longStep) e
    · rfl
    · have := only e (by omega) c; omega)
  have := runLen_ge (over := overAt fir 0 longStep) (a := 13) 33013 (fun e h1 h2 => stay e h1 (by omega))
  have e1 : 13 + 33013 = 33026 := rfl
  rw [e1] at this
  omega

/-! ## C37: reading the buffer -/

/-- C37, first part: whatever the state, the superchunks and the stale contents of the buffer, neither the
writer nor the reader leaves the buffer, and the reader stops at the terminator; every channel number it
reads is one of the 96 collection channels. -/
theorem C37_within_buffer (taps : Nat → Int) (ins : List (Nat → Int)) : ∀ (v : VInfo) (old : List Nat),
    old.length = bufEntries →
    ∃ out, findAll taps v old ins = .ok out ∧ out.length = ins.length
      ∧ ∀ hits ∈ out, ∀ x ∈ hits, x.1 < 96 ∧ x.2.charge ≠ 0 ∧ x.2.time < 12 := by
  induction ins with
  | nil => intro v old _; exact ⟨[], rfl, rfl, by simp⟩
  | cons input ins ih =>
    intro v old ho
    obtain ⟨buf, e, hb⟩ := findHits_eq taps v input old (by rw [ho]; unfold bufEntries; omega)
    obtain ⟨out, e2, l2, h2⟩ := ih (avxWindow taps v input 12).1 buf (by rw [hb, ho])
    refine ⟨windowHits taps v input 12 :: out, ?_, by simp [l2], ?_⟩
    · unfold findAll
      rw [e, Outcome.bind_ok]
      dsimp only
      rw [e2]; rfl
    · intro hits hh
      rw [List.mem_cons] at hh
      rcases hh with rfl | hh
      · intro x hx
        unfold windowHits at hx
        rw [List.mem_flatMap] at hx
        obtain ⟨r, hr, hx⟩ := hx
        rw [List.mem_flatMap] at hx
        obtain ⟨g, hg, hx⟩ := hx
        unfold groupHits at hx
        rw [List.mem_filterMap] at hx
        obtain ⟨i, hi, hx⟩ := hx
        have hr : r < 6 := by simpa using hr
        have hi : i < 16 := by simpa using hi
        have times : ∀ (xs : List Reg) abs t p h, ∀ g ∈ (vRun taps abs t p h xs).2, g.time < t + xs.length := by
          intro xs
          induction xs with
          | nil => intro abs t p h g hg; simp [vRun] at hg
          | cons x xs ihx =>
            intro abs t p h g hg
            simp only [vRun, List.mem_append] at hg
            rw [List.length_cons]
            rcases hg with hg | hg
            · have : g.time = t := by
                revert hg
                unfold vHit
                dsimp only
                split
                · intro hg; simp at hg
                · intro hg; simp at hg; rw [hg]
              omega
            · have := ihx _ _ _ _ g hg
              omega
        have ht := times _ _ _ _ _ g hg
        rw [avxSamples_length] at ht
        split at hx
        · rename_i hc
          injection hx with hx
          rw [← hx]
          exact ⟨by dsimp only; omega, hc, by dsimp only; omega⟩
        · exact absurd hx (by simp)
      · exact h2 hits hh

/-- The reader stops at the terminator also if old hits follow it. -/
example : decode (List.replicate 64 magic ++ encodeGroup 0 ⟨3, fun _ => 7, fun _ => 2⟩) = .ok [] :=
  decode_magic _

/-- C37, second part where it holds: per superchunk and channel, the reader recovers exactly the hits that
ended in that superchunk, in order, apart from those with charge zero. -/
theorem C37_recovered_partial (taps : Nat → Int) (h7 : taps 7 = 0) (old : List Nat)
    (ho : old.length = bufEntries) (ins : List (Nat → Int)) (hi : ∀ i ∈ ins, TwelveBit i) :
    ∃ out, processor taps old ins = .ok out ∧ out.length = ins.length
      ∧ ∀ c, c < 96 → ∀ (k : Nat) (hits : List (Nat × Hit)), out[k]? = some hits →
        hitsOf c hits
          = (((List.range 12).filter fun j =>
                ends (overAt taps (startPed ins c) (chanStream ins c)) (12 * k + j)).map fun j =>
              hitAt taps (startPed ins c) (chanStream ins c) (12 * k) (12 * k + j)).filter
            fun h => h.charge != 0 := by
  obtain ⟨out, e, l, h⟩ := run_hits h7 ho hi
  exact ⟨out, e, l, fun c hc k hits hk => h c hc k hits hk⟩

/-- C37 is false: the hit that ended at sample 118 (superchunk 9) is not recovered. -/
theorem C37_zero_charge_counterexample :
    ∃ out, processor fir freshBuf (fill faint) = .ok out ∧ absHits 0 0 out = [⟨109, 2, 8⟩]
      ∧ ends (overAt fir 100 faint) 118 = true ∧ runLen (overAt fir 100 faint) 118 = 7 :=
  C36_zero_charge_counterexample

/-! ## C66: no hit without a signal -/

/-- The sample `k` is over threshold according to the exact filter output. -/
def exactOver (taps : Nat → Int) (ped : Int) (xs : List Int) (k : Nat) : Bool :=
  decide (5 * (64 * min (exactSigma ped xs k) 102) < exactFilter taps ped xs k)

theorem residual_le (ped : Int) (xs : List Int) (k : Nat) : residuals ped xs k ≤ 511 := by
  unfold residuals; omega

theorem filter_exact {ped : Int} {xs : List Int} (h : ∀ k, k < xs.length → -512 ≤ residuals ped xs k)
    {k : Nat} (hk : k ≤ xs.length) : w16 (exactFilter fir ped xs k) = exactFilter fir ped xs k := by
  have r : ∀ j, j < 8 → -512 ≤ (if 8 ≤ k + j then residuals ped xs (k + j - 8) else 0)
      ∧ (if 8 ≤ k + j then residuals ped xs (k + j - 8) else 0) ≤ 511 := by
    intro j hj
    split
    · exact ⟨h _ (by omega), residual_le _ _ _⟩
    · omega
  have f : ∀ r0 r1 r2 r3 r4 r5 r6 r7 : Int, fir 0 * r0 + fir 1 * r1 + fir 2 * r2 + fir 3 * r3 + fir 4 * r4
      + fir 5 * r5 + fir 6 * r6 + fir 7 * r7
      = 1 * r0 + 6 * r1 + 15 * r2 + 20 * r3 + 15 * r4 + 6 * r5 + 1 * r6 + 0 * r7 := fun _ _ _ _ _ _ _ _ => rfl
  unfold exactFilter
  dsimp only
  rw [f]
  have a0 := r 0 (by decide); have a1 := r 1 (by decide); have a2 := r 2 (by decide)
  have a3 := r 3 (by decide); have a4 := r 4 (by decide); have a5 := r 5 (by decide)
  have a6 := r 6 (by decide)
  generalize (if 8 ≤ k + 0 then residuals ped xs (k + 0 - 8) else 0) = x0 at *
  generalize (if 8 ≤ k + 1 then residuals ped xs (k + 1 - 8) else 0) = x1 at *
  generalize (if 8 ≤ k + 2 then residuals ped xs (k + 2 - 8) else 0) = x2 at *
  generalize (if 8 ≤ k + 3 then residuals ped xs (k + 3 - 8) else 0) = x3 at *
  generalize (if 8 ≤ k + 4 then residuals ped xs (k + 4 - 8) else 0) = x4 at *
  generalize (if 8 ≤ k + 5 then residuals ped xs (k + 5 - 8) else 0) = x5 at *
  generalize (if 8 ≤ k + 6 then residuals ped xs (k + 6 - 8) else 0) = x6 at *
  generalize (if 8 ≤ k + 7 then residuals ped xs (k + 7 - 8) else 0) = x7 at *
  exact w16_id (by omega) (by omega)

theorem runLen_congr {f g : Nat → Bool} {e : Nat} (h : ∀ k, k < e → f k = g k) : runLen f e = runLen g e := by
  induction e with
  | zero => rfl
  | succ e ih =>
    unfold runLen
    rw [h e (by omega), ih fun k hk => h k (by omega)]

theorem runSum_congr {f g : Nat → Bool} {a b : Nat → Int} {e : Nat} (h : ∀ k, k < e → f k = g k)
    (h' : ∀ k, k < e → a k = b k) : runSum f a e = runSum g b e := by
  induction e with
  | zero => rfl
  | succ e ih =>
    unfold runSum
    rw [h e (by omega), h' e (by omega), ih (fun k hk => h k (by omega)) fun k hk => h' k (by omega)]

/-- C66 where it holds: if no sample of a channel is more than 512 below the pedestal, every reported hit
is the end of a run of samples at which the exact weighted sum of the pedestal-subtracted samples exceeds
the threshold, and its charge is the sum of these values. -/
theorem C66_signal_partial (old : List Nat) (ho : old.length = bufEntries) (ins : List (Nat → Int))
    (hi : ∀ i ∈ ins, TwelveBit i) :
    ∃ out, processor fir old ins = .ok out
      ∧ ∀ c, c < 96 → (∀ k, k < 12 * ins.length → -512 ≤ residuals (startPed ins c) (chanStream ins c) k) →
        ∀ h ∈ absHits c 0 out,
          ends (exactOver fir (startPed ins c) (chanStream ins c)) h.time = true
          ∧ h.tover = min 32767 (runLen (exactOver fir (startPed ins c) (chanStream ins c)) h.time)
          ∧ (h.charge : Int) = min 32767 (runSum (exactOver fir (startPed ins c) (chanStream ins c))
              (fun k => exactFilter fir (startPed ins c) (chanStream ins c) k / 64) h.time) := by
  obtain ⟨out, e, l, h⟩ := run_all (taps := fir) rfl ho hi
  refine ⟨out, e, fun c hc hres x hx => ?_⟩
  rw [h c hc] at hx
  unfold charged hitsBetween at hx
  rw [List.mem_filter, List.mem_map] at hx
  obtain ⟨⟨j, hj, rfl⟩, nz⟩ := hx
  rw [List.mem_filter, List.mem_range] at hj
  rw [Nat.zero_add] at hj nz ⊢
  have hlen := chanStream_length ins c
  have fe : ∀ k, k ≤ j → w16 (exactFilter fir (startPed ins c) (chanStream ins c) k)
      = exactFilter fir (startPed ins c) (chanStream ins c) k :=
    fun k hk => filter_exact (fun i hi => hres i (by omega)) (by omega)
  have oe : ∀ k, k ≤ j → overAt fir (startPed ins c) (chanStream ins c) k
      = exactOver fir (startPed ins c) (chanStream ins c) k := by
    intro k hk; unfold overAt exactOver; rw [fe k hk]
  have ce : ∀ k, k < j → chargeAt fir (startPed ins c) (chanStream ins c) k
      = exactFilter fir (startPed ins c) (chanStream ins c) k / 64 := by
    intro k hk; unfold chargeAt; rw [fe k (by omega)]
  have rs := runSum_congr (e := j) (fun k hk => oe k (by omega)) ce
  refine ⟨?_, ?_, ?_⟩
  · show ends _ (j - 0) = true
    rw [Nat.sub_zero]
    have := hj.2
    unfold ends at this ⊢
    rw [← oe j (Nat.le_refl _), ← oe (j - 1) (by omega)]
    exact this
  · show min 32767 (runLen _ j) = min 32767 (runLen _ (j - 0))
    rw [Nat.sub_zero, runLen_congr fun k hk => oe k (by omega)]
  · show (((min 32767 (runSum _ _ j)).toNat : Nat) : Int) = min 32767 (runSum _ _ (j - 0))
    rw [Nat.sub_zero, ← rs]
    have : ((min 32767 (runSum (overAt fir (startPed ins c) (chanStream ins c))
        (chargeAt fir (startPed ins c) (chanStream ins c)) j)).toNat) ≠ 0 := by
      have nz' : (hitAt fir (startPed ins c) (chanStream ins c) 0 j).charge ≠ 0 := by simpa using nz
      exact nz'
    omega

/-- The pulse meets the hypothesis. -/
example : ∀ k, k < 24 → -512 ≤ residuals 100 pulse k := by decide +kernel

/-- A drop of the baseline by 2000 counts. -/
def drop : List Int := List.replicate 12 2000 ++ List.replicate 24 0

/-- C66 is false: after a large drop the filter register wraps and hits are reported although the exact
filter output is never positive. -/
theorem C66_wrap_counterexample :
    (∀ k, k < 36 → exactFilter fir 2000 drop k ≤ 0)
      ∧ ∃ out, processor fir freshBuf (fill drop) = .ok out ∧ absHits 0 0 out ≠ [] := by
  refine ⟨by decide +kernel, ?_⟩
  obtain ⟨out, e, h, _⟩ := run_fill (x := 2000) (xs := drop.tail) (by decide) (by decide) (by decide)
  have hc : drop = 2000 :: drop.tail := by decide
  rw [← hc] at e h
  refine ⟨out, e, ?_⟩
  rw [h]
  decide +kernel

/-! ## C68: trigger primitive times -/

/-- `tpOf` with the word size as a parameter. -/
theorem tp_word (M W : Nat) (Wi : Int) (hW : 2 * M = W) (hWi : Wi = (W : Int)) (ts k j L n : Nat)
    (hts : ts + 300 * n < M) (hk : k < n) (hj : j < 12) (hL : L ≤ 12 * k + j) :
    ((((ts + 300 * k : Nat) : Int) + 25 * ((j : Int) - (L : Int))) % Wi).toNat = ts + 25 * (12 * k + j - L)
      ∧ (ts + 300 * k + 25 * j) % W = ts + 25 * (12 * k + j)
      ∧ (ts + 25 * (12 * k + j - L) + (ts + 25 * (12 * k + j))) % W
        = ts + 25 * (12 * k + j - L) + (ts + 25 * (12 * k + j)) := by
  have e2 : (((ts + 300 * k : Nat) : Int) + 25 * ((j : Int) - (L : Int)))
      = ((ts + 25 * (12 * k + j - L) : Nat) : Int) := by omega
  rw [e2, hWi, ← Int.natCast_emod, Int.toNat_natCast, Nat.mod_eq_of_lt (by omega), Nat.mod_eq_of_lt (by omega),
    Nat.mod_eq_of_lt (by omega)]
  exact ⟨rfl, by omega, rfl⟩

theorem tp_arith (ts k j L n : Nat) (hts : ts + 300 * n < 9223372036854775808) (hk : k < n) (hj : j < 12)
    (hL : L ≤ 12 * k + j) (q : Nat) :
    (tpOf (ts + 300 * k) ⟨j, q, L⟩).timeStart = ts + 25 * (12 * k + j - L)
      ∧ (tpOf (ts + 300 * k) ⟨j, q, L⟩).timeOver = 25 * L
      ∧ (tpOf (ts + 300 * k) ⟨j, q, L⟩).timeStart ≤ (tpOf (ts + 300 * k) ⟨j, q, L⟩).timePeak
      ∧ (tpOf (ts + 300 * k) ⟨j, q, L⟩).timePeak
        ≤ (tpOf (ts + 300 * k) ⟨j, q, L⟩).timeStart + (tpOf (ts + 300 * k) ⟨j, q, L⟩).timeOver := by
  obtain ⟨a, b, c⟩ := tp_word 9223372036854775808 18446744073709551616 18446744073709551616
    (by decide) (by decide) ts k j L n hts hk hj hL
  unfold tpOf
  dsimp only
  rw [a, b, c]
  clear a b c hts
  refine ⟨rfl, ?_, ?_, ?_⟩ <;> omega

/-- C68: if consecutive superchunks carry timestamps 300 ticks apart, the trigger primitive made from a
hit starts at the timestamp of the first over-threshold sample and lasts 25 ticks per sample, for every
run of at most 32767 samples, also one that began in an earlier superchunk. -/
theorem C68_tp_times (taps : Nat → Int) (h7 : taps 7 = 0) (old : List Nat)
    (ho : old.length = bufEntries) (ins : List (Nat → Int)) (hi : ∀ i ∈ ins, TwelveBit i) (ts : Nat)
    (hts : ts + 300 * ins.length < 9223372036854775808) :
    ∃ out, processor taps old ins = .ok out
      ∧ ∀ c, c < 96 → ∀ (k : Nat) (hits : List (Nat × Hit)), out[k]? = some hits → ∀ h ∈ hitsOf c hits,
        ∃ e, 12 * k ≤ e ∧ e < 12 * k + 12
          ∧ ends (overAt taps (startPed ins c) (chanStream ins c)) e = true
          ∧ (runLen (overAt taps (startPed ins c) (chanStream ins c)) e ≤ 32767 →
            (tpOf (ts + 300 * k) h).timeStart
                = ts + 25 * (e - runLen (overAt taps (startPed ins c) (chanStream ins c)) e)
              ∧ (tpOf (ts + 300 * k) h).timeOver
                = 25 * runLen (overAt taps (startPed ins c) (chanStream ins c)) e
              ∧ (tpOf (ts + 300 * k) h).timeStart ≤ (tpOf (ts + 300 * k) h).timePeak
              ∧ (tpOf (ts + 300 * k) h).timePeak
                ≤ (tpOf (ts + 300 * k) h).timeStart + (tpOf (ts + 300 * k) h).timeOver) := by
  obtain ⟨out, e, l, h⟩ := run_hits h7 ho hi
  refine ⟨out, e, fun c hc k hits hk x hx => ?_⟩
  rw [h c hc k hits hk] at hx
  unfold charged hitsBetween at hx
  rw [List.mem_filter, List.mem_map] at hx
  obtain ⟨⟨j, hj, rfl⟩, _⟩ := hx
  rw [List.mem_filter, List.mem_range] at hj
  have hkl : k < out.length := (List.getElem?_eq_some_iff.mp hk).1
  have m := (runLen_maximal (overAt taps (startPed ins c) (chanStream ins c)) (12 * k + j)).1
  refine ⟨12 * k + j, by omega, by omega, hj.2, fun hr => ?_⟩
  have t := tp_arith ts k j (runLen (overAt taps (startPed ins c) (chanStream ins c)) (12 * k + j))
    ins.length hts (by omega) hj.1 m
    (min 32767 (runSum (overAt taps (startPed ins c) (chanStream ins c))
      (chargeAt taps (startPed ins c) (chanStream ins c)) (12 * k + j))).toNat
  have e1 : min 32767 (runLen (overAt taps (startPed ins c) (chanStream ins c)) (12 * k + j))
      = runLen (overAt taps (startPed ins c) (chanStream ins c)) (12 * k + j) := by omega
  unfold hitAt
  rw [e1, show 12 * k + j - 12 * k = j by omega]
  exact t

/-- The pulse: five samples from number 17, in superchunks with timestamps 1000000 and 1000300. -/
example : tpOf 1000300 ⟨10, 298, 5⟩ = ⟨1000000 + 25 * 17, 1000000 + 25 * 17 + 62, 125, 298⟩ := by decide

end Verif.Tpg
