import Verif.RawLinkModel
import Verif.StitchProps
import Verif.DataReqProps
/- Property C105: links for raw trigger primitives over the life of the module. -/
namespace Verif.RawLink
open Verif.Stitch Verif.Ring

/-! ### Lemmas -/

theorem oneHit_same (s s' : Stitch.St) (h : s.A = s'.A) (ts ch : Nat) (x : Hit) :
    (oneHit s ts ch x).A = (oneHit s' ts ch x).A ∧
      ∃ d, (oneHit s ts ch x).tps = s.tps ++ d ∧ (oneHit s' ts ch x).tps = s'.tps ++ d := by
  refine ⟨by simp only [oneHit, h], (hitStep (s.A ch) ts ch x).2.1, rfl, ?_⟩
  rw [h]; rfl

theorem hits_same (l : List (Nat × Nat × Hit)) (s s' : Stitch.St) (h : s.A = s'.A) :
    let r := l.foldl (fun s x => oneHit s x.1 x.2.1 x.2.2) s
    let r' := l.foldl (fun s x => oneHit s x.1 x.2.1 x.2.2) s'
    r.A = r'.A ∧ ∃ d, r.tps = s.tps ++ d ∧ r'.tps = s'.tps ++ d := by
  induction l generalizing s s' with
  | nil => exact ⟨h, [], by simp, by simp⟩
  | cons x l ih =>
    obtain ⟨h1, d, h2, h3⟩ := oneHit_same s s' h x.1 x.2.1 x.2.2
    obtain ⟨g1, e, g2, g3⟩ := ih _ _ h1
    refine ⟨g1, d ++ e, ?_, ?_⟩
    · simp only [List.foldl_cons]; rw [g2, h2, List.append_assoc]
    · simp only [List.foldl_cons]; rw [g3, h3, List.append_assoc]

/-- The primitives completed by further frames depend on the earlier ones only through the open primitives. -/
theorem run_same (s s' : Stitch.St) (h : s.A = s'.A) (fs : List Frame) :
    (run s fs).A = (run s' fs).A ∧ ∃ d, (run s fs).tps = s.tps ++ d ∧ (run s' fs).tps = s'.tps ++ d := by
  rw [run_hits, run_hits]
  exact hits_same _ _ _ h

theorem process_ok {x x' : St} {f : Frame} (h : process x (some f) = .ok x') :
    x' = { x with s := tpStitch x.s f, frames := x.frames + 1 } ∧ x.frames + 1 < 2147483648 := by
  simp only [process, incInt] at h
  split at h
  · rename_i h1
    simp only [Outcome.bind_ok] at h
    split at h
    · simp only [Outcome.bind_ok] at h
      injection h with h
      exact ⟨h.symm, h1⟩
    · simp at h
  · simp at h

theorem flatten_note (f : Frame) (l : List (List Frame)) : (note f l).flatten = l.flatten ++ [f] := by
  induction l with
  | nil => rfl
  | cons r rest ih =>
    cases rest with
    | nil => simp [note]
    | cons r' rest' =>
      simp only [note, List.flatten_cons] at ih ⊢
      rw [ih]; simp

theorem run_snoc (s : Stitch.St) (fs : List Frame) (f : Frame) : run s (fs ++ [f]) = tpStitch (run s fs) f := by
  simp [run, List.foldl_append]

theorem hitStep_length (o : List TP) (ts ch : Nat) (h : Hit) :
    (hitStep o ts ch h).1.length + (hitStep o ts ch h).2.1.length ≤ o.length + 1 := by
  simp only [hitStep, stitch, finish]
  rcases o with _ | ⟨a, _ | ⟨b, o⟩⟩
  · by_cases hc : h.cont = false <;> simp [hc]
  · by_cases c1 : h.start = 0 ∧ Verif.Search.u64 ((mkTP ts ch h).start + 18446744073709551616 - a.start) ≤ stitchConst <;>
      by_cases hc : h.cont = false <;> simp [c1, hc]
  · by_cases hc : h.cont = false <;> simp [hc]

theorem chanRun_length (ch : Nat) (l : List (Nat × Hit)) (o : List TP) :
    (chanRun ch o l).1.length + (chanRun ch o l).2.length ≤ o.length + l.length := by
  induction l generalizing o with
  | nil => simp [chanRun]
  | cons x l ih =>
    obtain ⟨ts, h⟩ := x
    simp only [chanRun, List.length_append, List.length_cons]
    have := hitStep_length o ts ch h
    have := ih (hitStep o ts ch h).1
    omega

/-! ### Property C105 -/

/-- **C105 (definedness, members)** Whatever runs and frames there were: the processor holds what the stitching of
all frames since its construction, of all runs one after the other, gives. -/
theorem C105_one_stream (x : St) (h : Reach x) :
    x.s = run Stitch.init x.fed.flatten ∧ x.frames = x.fed.flatten.length := by
  induction h with
  | init => exact ⟨rfl, rfl⟩
  | start x _ ih => simpa [start] using ih
  | payload x x' f _ hr e ih =>
    obtain ⟨rfl, -⟩ := process_ok e
    simp only [flatten_note, run_snoc, List.length_append, List.length_singleton]
    exact ⟨by rw [ih.1], by rw [ih.2]⟩

/-- **C105 (memory)** The primitives kept for a channel, completed or open, are at most as many as its hits since the
construction of the module. Nothing better holds: `C105_memory_counterexample`. -/
theorem C105_memory_partial (x : St) (h : Reach x) (ch : Nat) :
    (x.s.tps.filter (fun t => t.ch = ch)).length + (x.s.A ch).length ≤
      (chanHits ch (hitsOf x.fed.flatten)).length := by
  obtain ⟨e, -⟩ := C105_one_stream x h
  rw [e, run_hits]
  obtain ⟨h1, h2⟩ := chan_independent (hitsOf x.fed.flatten) Stitch.init ch (by simp [Stitch.init])
  rw [h1, h2]
  have := chanRun_length ch (chanHits ch (hitsOf x.fed.flatten)) (Stitch.init.A ch)
  simp only [Stitch.init, List.filter_nil, List.nil_append, List.length_nil] at *
  omega

/-- **C105 (runs)** If the runs before left no primitive open, the frames of a run give the primitives they would give
to a new module, whatever happened before. Otherwise not: `C105_runs_counterexample`. -/
theorem C105_runs_partial (x : St) (h : Reach x) (before : List (List Frame)) (fs : List Frame)
    (hf : x.fed = before ++ [fs]) (ho : ∀ ch, (run Stitch.init before.flatten).A ch = []) :
    x.s.tps = (run Stitch.init before.flatten).tps ++ (run Stitch.init fs).tps ∧
      x.s.A = (run Stitch.init fs).A := by
  obtain ⟨e, -⟩ := C105_one_stream x h
  have e' : x.s = run (run Stitch.init before.flatten) fs := by
    rw [e, hf]; simp [run, List.foldl_append]
  obtain ⟨h1, d, h2, h3⟩ := run_same (run Stitch.init before.flatten) Stitch.init
    (by funext c; simp only [ho c]; rfl) fs
  rw [e']
  refine ⟨?_, h1⟩
  rw [h2, h3]; simp [Stitch.init]

/-- **C105 (definedness)** With fewer than 2^31 frames and primitives every payload that has a frame is processed. -/
theorem C105_defined_partial (x : St) (f : Frame) (h1 : x.frames + 1 < 2147483648)
    (h2 : x.s.count + ((tpStitch x.s f).count - x.s.count) < 2147483648) :
    process x (some f) = .ok { x with s := tpStitch x.s f, frames := x.frames + 1 } := by
  simp [process, incInt, h1, h2]

/-- A first part on channel 7 that continues, ... -/
def open7 : Frame := ⟨1600, 7, [⟨1, 50, 63, 55, 90, 400, true⟩]⟩
/-- ... its second part in the next packet, ... -/
def close7 : Frame := ⟨3200, 7, [⟨2, 0, 5, 2, 120, 300, false⟩]⟩
/-- ... and a hit a second later. -/
def later7 : Frame := ⟨50003200, 7, [⟨3, 10, 20, 12, 80, 200, true⟩]⟩

theorem reach_of (x : St) (f : Frame) (h : Reach x) (hr : x.fed ≠ []) (h1 : x.frames + 1 < 2147483648)
    (h2 : x.s.count + ((tpStitch x.s f).count - x.s.count) < 2147483648) :
    Reach { s := tpStitch x.s f, frames := x.frames + 1, fed := note f x.fed } :=
  .payload x _ f h hr (C105_defined_partial { x with fed := note f x.fed } f h1 h2)

/-- The hypothesis of `C105_runs_partial` after a run that completed its primitive. -/
example : ∃ x, Reach x ∧ x.fed = [[open7, close7]] ++ [[later7]] ∧
    (∀ ch, (run Stitch.init [open7, close7]).A ch = []) ∧ x.s.tps.length = 1 := by
  have r1 := Reach.start _ .init
  have r2 := reach_of _ open7 r1 (by simp [start]) (by decide) (by decide)
  have r3 := reach_of _ close7 r2 (by simp [start, init, note]) (by decide) (by decide)
  have r4 := Reach.start _ r3
  have r5 := reach_of _ later7 r4 (by simp [start, init, note]) (by decide) (by decide)
  refine ⟨_, r5, rfl, ?_, rfl⟩
  intro ch
  by_cases h : ch = 7
  · subst h; rfl
  · show (tpStitch (tpStitch Stitch.init open7) close7).A ch = []
    simp [tpStitch, oneHit, open7, close7, h, Stitch.init]

/-- **C105 is false (runs)**: a run that ends with an open primitive passes it on. The second run consists of one hit a
second later; it completes a primitive whose hit is one of the first run. A new module completes none. -/
theorem C105_runs_counterexample :
    ∃ x, Reach x ∧ x.fed = [[open7], [later7]] ∧ x.s.tps.map (·.hits) = [[1]] ∧ (run Stitch.init [open7]).tps = [] ∧
      (run Stitch.init [later7]).tps = [] := by
  have r1 := Reach.start _ .init
  have r2 := reach_of _ open7 r1 (by simp [start]) (by decide) (by decide)
  have r3 := Reach.start _ r2
  have r4 := reach_of _ later7 r3 (by simp [start, init, note]) (by decide) (by decide)
  exact ⟨_, r4, rfl, rfl, rfl, rfl⟩

/-- **C105 is false (channels)**: after a hit of three parts at the end of a run, no frames of any later runs complete
a primitive on that channel. -/
theorem C105_dead_channel_counterexample :
    ∃ x, Reach x ∧ x.fed = [[open7, ⟨3200, 7, [⟨2, 0, 63, 2, 120, 300, true⟩]⟩], []] ∧
      ∀ fs, (run x.s fs).tps.filter (fun t => t.ch = 7) = [] := by
  have r1 := Reach.start _ .init
  have r2 := reach_of _ open7 r1 (by simp [start]) (by decide) (by decide)
  have r3 := reach_of _ ⟨3200, 7, [⟨2, 0, 63, 2, 120, 300, true⟩]⟩ r2 (by simp [start, init, note]) (by decide)
    (by decide)
  have r4 := Reach.start _ r3
  refine ⟨_, r4, rfl, fun fs => ?_⟩
  refine (C31_dead_channel fs _ 7 ?_ (by decide)).1.trans rfl
  intro c a ha
  by_cases h : c = 7
  · subst h
    have : ∀ a ∈ (tpStitch (tpStitch Stitch.init open7) ⟨3200, 7, [⟨2, 0, 63, 2, 120, 300, true⟩]⟩).A 7, a.ch = 7 := by
      decide
    exact this a ha
  · have : (tpStitch (tpStitch Stitch.init open7) ⟨3200, 7, [⟨2, 0, 63, 2, 120, 300, true⟩]⟩).A c = [] := by
      simp [tpStitch, oneHit, open7, h, Stitch.init]
    have ha' : a ∈ (tpStitch (tpStitch Stitch.init open7) ⟨3200, 7, [⟨2, 0, 63, 2, 120, 300, true⟩]⟩).A c := ha
    rw [this] at ha'
    cases ha'

/-- A frame with both parts of a hit. -/
def both : Frame := ⟨1600, 7, [⟨1, 0, 10, 5, 90, 400, true⟩, ⟨2, 0, 5, 2, 120, 300, false⟩]⟩

theorem both_step (s : Stitch.St) (h : s.A 7 = []) :
    (tpStitch s both).A 7 = [] ∧ (tpStitch s both).tps.length = s.tps.length + 1 ∧
      (tpStitch s both).count = s.count + 1 := by
  simp [tpStitch, both, oneHit, hitStep, stitch, finish, mkTP, h, Verif.Search.u64, tick, stitchConst]

/-- **C105 is false (memory)**: the primitives completed are kept for the life of the module, although nothing reads
them: any number of them, up to the overflow of the counters. -/
theorem C105_memory_counterexample (n : Nat) (hn : n < 2147483648) :
    ∃ x, Reach x ∧ x.frames = n ∧ x.s.tps.length = n := by
  have key : ∀ n, n < 2147483648 → ∃ x, Reach x ∧ x.fed ≠ [] ∧ x.frames = n ∧ x.s.tps.length = n ∧ x.s.count = n ∧
      x.s.A 7 = [] := by
    intro n
    induction n with
    | zero => exact fun _ => ⟨_, .start _ .init, by simp [start], rfl, rfl, rfl, rfl⟩
    | succ n ih =>
      intro hn
      obtain ⟨x, h, h0, h1, h2, h3, h4⟩ := ih (by omega)
      obtain ⟨g1, g2, g3⟩ := both_step x.s h4
      refine ⟨_, reach_of x both h h0 (by omega) (by omega), ?_, by simp [h1], by simp [g2, h2], by simp [g3, h3], g1⟩
      intro hx
      have := congrArg List.flatten hx
      rw [flatten_note] at this
      simp at this
  obtain ⟨x, h, -, h1, h2, -⟩ := key n hn
  exact ⟨x, h, h1, h2⟩

/-- **C105 is false (definedness)**: after 2147483647 frames the next payload overflows the frame counter. -/
theorem C105_overflow_counterexample :
    ∃ x, Reach x ∧ x.frames = 2147483647 ∧ ∀ p, (process x p).IsUB := by
  obtain ⟨x, h, h1, -⟩ := C105_memory_counterexample 2147483647 (by omega)
  refine ⟨x, h, h1, ?_⟩
  intro p
  cases p with
  | none => exact ⟨_, rfl⟩
  | some f => exact ⟨.overflow, by simp [process, incInt, h1]⟩

/-- **C105 is false (recording)**: whatever the buffer holds, a record command on such a link makes its thread write
through a null pointer before anything is recorded. -/
theorem C105_recording_counterexample (q : Ring.Ring Payload) (l : List Payload) (h : Repr q l) (duration : Nat)
    (hd : 0 < duration) : recordBegin q duration = .ub .nullDeref := by
  unfold recordBegin
  rw [if_neg (by omega)]
  cases l with
  | nil =>
    have : q.rd = q.wr := h.rd_eq_wr.2 rfl
    have hf : q.front = none := by simp [Ring.front, this]
    simp [hf, setTs, fresh]
  | cons a l =>
    have hd := DataReq.front_deref h (show (a :: l)[0]? = some a from rfl)
    cases hf : q.front with
    | none => rw [hf] at hd; simp [Ring.derefPtr] at hd
    | some i =>
      rw [hf] at hd
      simp only [hd, Outcome.bind_ok]
      cases a with
      | none => simp [getTs]
      | some f => simp [getTs, setTs, fresh]

example : ∃ (q : Ring.Ring Payload) (l : List Payload), Repr q l ∧ l = [some open7, some close7] := by
  have h0 := repr_init (α := Payload) 4 (by omega)
  obtain ⟨q1, -, r1, s1, -⟩ := write_ok h0 (some open7) (by decide)
  obtain ⟨q2, -, r2, -⟩ := write_ok r1 (some close7) (by rw [s1]; decide)
  exact ⟨q2, _, r2, rfl⟩

end Verif.RawLink
