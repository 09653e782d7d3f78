import Verif.EmuLinkModel
import Verif.EmuProps
import Verif.SessionProps
/- Property C92: a request to an emulated link is answered with the data of the emulator's file. -/
namespace Verif.EmuLink
open Verif.Search (u64)
open Verif.Session (runLog AllStored Steady InWindow Link)

/-! ### Specification vocabulary -/

/-- Time between two payloads of the emulator: twelve frames. -/
def stride (c : Cfg) : Nat := c.emu.tick * 12

/-- The payloads (bytes and timestamp) the consumer of the link took out of the queue in run `r`. -/
def takenIn (s : St) (r : Nat) : List (List Nat × Nat) := (s.taken.filter (·.1 = r)).map (·.2)

/-- Emulator and link belong together and the emulator is usable: same tick, twelve frames per payload, a file of
at least one payload, a non-empty dropout pattern, a 64-bit first timestamp. -/
structure Matched (c : Cfg) : Prop where
  tick : c.emu.tick = c.link.tick
  nf : c.link.nf = 12
  pos : 0 < c.emu.sz
  file : c.emu.sz ≤ c.emu.source.length
  drops : c.emu.drops ≠ []
  t0 : c.t0 < 18446744073709551616

/-- The emulator creates a payload in every iteration. -/
def NoDropout (c : Cfg) : Prop := ∀ i, Emu.creates c.emu i = true

/-- One if `t` is not one step after `p` (modulo 2^64), otherwise zero. -/
def brk (step p t : Nat) : Nat := if t = (p + step) % 18446744073709551616 then 0 else 1

/-- Number of timestamps that are not one step after their predecessor (of the first: after `p`), modulo 2^64. -/
def breaks (step : Nat) : Nat → List Nat → Nat
  | _, [] => 0
  | p, t :: ts => brk step p t + breaks step t ts

/-! ### The invariant -/

structure Inv (c : Cfg) (n : Nat) (s : St) : Prop where
  reach : Session.Reach c.link n s.link
  down : s.ctl = .down → s.link.phase = .idle ∧ s.queue = []
  fresh : s.ctl = .linkUp → s.iters s.link.run = 0
  up : s.prod ≠ none → s.ctl = .up
  prod : ∀ e, s.prod = some e → Emu.Inv c.emu c.t0 (s.iters s.link.run) e
  later : ∀ r, s.link.run < r → s.iters r = 0 ∧ s.lost r = 0 ∧ ∀ x ∈ s.taken, x.1 ≠ r
  logs : ∀ r, runLog s.link.log r = (takenIn s r).map (·.2)
  flow : ∀ r, (takenIn s r ++ (if r = s.link.run then s.queue else [])).Sublist
      (Emu.expected c.emu c.t0 (s.iters r))
  count : ∀ r, (takenIn s r ++ (if r = s.link.run then s.queue else [])).length + s.lost r
      = (Emu.expected c.emu c.t0 (s.iters r)).length
  room : s.queue.length ≤ c.cap

theorem step_run {c : Session.Cfg} {l l' : Session.St} (st : Session.Step c l l')
    (hph : l'.phase = l.phase ∨ (l.phase = .stopping ∧ l'.phase = .joined)) : l'.run = l.run := by
  cases st with
  | start hp => rcases hph with h | h <;> simp [Session.startCmd, hp] at h
  | receive _ t hp he =>
    simp only [Session.receive] at he
    cases h : Pipeline.receive (c.tick * c.nf) l.p t with
    | ub w => simp [h] at he
    | throws w => simp [h] at he
    | ok r => simp [h] at he; rw [← he]
  | clean _ a b d hp he =>
    simp only [Session.clean] at he
    cases h : Pipeline.clean a b d l.p with
    | ub w => simp [h] at he
    | throws w => simp [h] at he
    | ok r => simp [h] at he; rw [← he]
  | finish _ hp he =>
    simp only [Session.finish] at he
    cases h : l.p.q.flush with
    | ub w => simp [h] at he
    | throws w => simp [h] at he
    | ok r => simp [h] at he; rw [← he]
  | _ => rfl

theorem finish_eq {l l' : Session.St} (he : Session.finish l = .ok l') :
    l'.log = l.log ∧ l'.run = l.run ∧ l'.phase = .idle := by
  simp only [Session.finish] at he
  cases h : l.p.q.flush with
  | ub w => simp [h] at he
  | throws w => simp [h] at he
  | ok r => simp [h] at he; rw [← he]; exact ⟨rfl, rfl, rfl⟩

theorem receive_eq {c : Session.Cfg} {l l' : Session.St} {t : Nat} (he : Session.receive c l t = .ok l') :
    l'.run = l.run ∧ l'.phase = l.phase ∧ ∃ b, l'.log = l.log ++ [⟨l.run, t, b⟩] := by
  simp only [Session.receive] at he
  cases h : Pipeline.receive (c.tick * c.nf) l.p t with
  | ub w => simp [h] at he
  | throws w => simp [h] at he
  | ok r => simp [h] at he; rw [← he]; exact ⟨rfl, rfl, _, rfl⟩

theorem inv_reach {c : Cfg} {n : Nat} (hm : Matched c) {s : St} (h : Reach c n s) : Inv c n s := by
  induction h with
  | init =>
    refine ⟨.init, fun _ => ⟨rfl, rfl⟩, by simp [St.init], by simp [St.init], by simp [St.init], ?_, ?_, ?_, ?_, ?_⟩
    · intro r _; simp [St.init]
    · intro r; simp [St.init, runLog, Session.St.init, takenIn]
    · intro r
      show ([] ++ if r = 0 then [] else []).Sublist ([] : List (List Nat × Nat))
      simp
    · intro r
      show (([] : List (List Nat × Nat)) ++ if r = 0 then [] else []).length + 0 = 0
      simp
    · simp [St.init]
  | step s s' _ st ih =>
    cases st with
    | startLink hc =>
      obtain ⟨hp, hq⟩ := ih.down hc
      have hpn : s.prod = none := by
        by_contra hne
        have := ih.up hne
        rw [hc] at this; cases this
      obtain ⟨l1, l2, l3⟩ := ih.later (s.link.run + 1) (by omega)
      refine ⟨.step _ _ ih.reach (.start _ hp), by simp, fun _ => l1, by simp [hpn], by simp [hpn], ?_, ?_, ?_, ?_, ih.room⟩
      · intro r hr
        exact ih.later r (by simp only [Session.startCmd] at hr; omega)
      · intro r; exact ih.logs r
      · intro r
        have := ih.flow r
        simp only [hq, ite_self, List.append_nil] at this ⊢
        exact this
      · intro r
        have := ih.count r
        simp only [hq, ite_self, List.append_nil] at this ⊢
        exact this
    | startCard hc =>
      refine ⟨ih.reach, by simp, by simp, by simp, ?_, ih.later, ih.logs, ih.flow, ih.count, ih.room⟩
      intro e he
      injection he with he
      subst he
      show Emu.Inv c.emu c.t0 (s.iters s.link.run) _
      rw [ih.fresh hc]
      exact Emu.begin_inv c.emu c.t0 hm.t0
    | produce e e' hp he =>
      have hup := ih.up (by simp [hp])
      have einv := ih.prod e hp
      obtain ⟨e2, h1, h2⟩ := Emu.iter_inv c.emu c.t0 hm.pos hm.file hm.drops _ einv
      rw [he] at h1; injection h1 with h1; subst h1
      have hf : fresh e e' = (if Emu.creates c.emu (s.iters s.link.run) then
          [(Emu.element c.emu (Emu.created c.emu (s.iters s.link.run) % Emu.numElem c.emu),
            u64 (c.t0 + s.iters s.link.run * (c.emu.tick * 12)))] else []) := by
        rw [fresh, h2.out, einv.out, Emu.expected_succ, List.drop_left]
      have hex : Emu.expected c.emu c.t0 (s.iters s.link.run + 1)
          = Emu.expected c.emu c.t0 (s.iters s.link.run) ++ fresh e e' := by
        rw [Emu.expected_succ, hf]
      have hl : (fresh e e').length ≤ 1 := by rw [hf]; split <;> simp
      generalize fresh e e' = xs at *
      unfold push
      split
      · rename_i hroom
        refine ⟨ih.reach, by simp [hup], by simp [hup], by simp [hup], ?_, ?_, ih.logs, ?_, ?_, by simpa using hroom⟩
        · intro e1 h1
          injection h1 with h1; subst h1
          simpa [bump] using h2
        · intro r hr
          have hr : s.link.run < r := hr
          have := ih.later r hr
          have hne : r ≠ s.link.run := by omega
          simpa [bump, hne] using this
        · intro r
          by_cases hr : r = s.link.run
          · subst hr
            have := ih.flow s.link.run
            simp only [if_true, bump, hex, takenIn] at this ⊢
            rw [← List.append_assoc]
            exact this.append (List.Sublist.refl _)
          · have := ih.flow r
            simpa [bump, hr, takenIn] using this
        · intro r
          by_cases hr : r = s.link.run
          · subst hr
            have := ih.count s.link.run
            simp only [if_true, bump, hex, takenIn, List.length_append] at this ⊢
            omega
          · have := ih.count r
            simpa [bump, hr, takenIn] using this
      · refine ⟨ih.reach, by simp [hup], by simp [hup], by simp [hup], ?_, ?_, ih.logs, ?_, ?_, ih.room⟩
        · intro e1 h1
          injection h1 with h1; subst h1
          simpa [bump] using h2
        · intro r hr
          have hr : s.link.run < r := hr
          have := ih.later r hr
          have hne : r ≠ s.link.run := by omega
          simpa [bump, hne] using this
        · intro r
          by_cases hr : r = s.link.run
          · subst hr
            have := ih.flow s.link.run
            simp only [if_true, bump, hex, takenIn] at this ⊢
            exact this.trans (List.sublist_append_left _ _)
          · have := ih.flow r
            simpa [bump, hr, takenIn] using this
        · intro r
          by_cases hr : r = s.link.run
          · subst hr
            have := ih.count s.link.run
            simp only [if_true, bump, hex, takenIn, List.length_append] at this ⊢
            omega
          · have := ih.count r
            simpa [bump, hr, takenIn] using this
    | stopCard hc =>
      exact ⟨ih.reach, by simp, by simp, by simp, by simp, ih.later, ih.logs, ih.flow, ih.count, ih.room⟩
    | consume x rest l hq hp he =>
      obtain ⟨h1, h2, b, h3⟩ := receive_eq he
      have ht : ∀ r, takenIn (s.take x rest l) r = takenIn s r ++ (if s.link.run = r then [x] else []) := by
        intro r
        by_cases hr : s.link.run = r <;> simp [takenIn, St.take, List.filter_append, hr]
      refine ⟨.step _ _ ih.reach (.receive _ _ _ hp he), ?_, ?_, ih.up, ?_, ?_, ?_, ?_, ?_, ?_⟩
      · intro hc
        obtain ⟨-, q⟩ := ih.down hc
        rw [hq] at q; cases q
      · intro hc
        have := ih.fresh hc
        simpa [St.take, h1] using this
      · intro e he'
        have := ih.prod e he'
        simpa [St.take, h1] using this
      · intro r hr
        have hr : s.link.run < r := by simpa [St.take, h1] using hr
        obtain ⟨a1, a2, a3⟩ := ih.later r hr
        refine ⟨a1, a2, ?_⟩
        intro y hy
        rw [St.take, List.mem_append] at hy
        rcases hy with hy | hy
        · exact a3 y hy
        · simp at hy; rw [hy]; simp; omega
      · intro r
        rw [ht]
        show runLog l.log r = _
        rw [h3, Session.runLog_append, ih.logs]
        by_cases hr : s.link.run = r <;> simp [hr]
      · intro r
        rw [ht]
        have := ih.flow r
        show (_ ++ if r = l.run then rest else []).Sublist (Emu.expected c.emu c.t0 (s.iters r))
        rw [h1]
        by_cases hr : r = s.link.run
        · subst hr; simpa [hq] using this
        · simpa [hr, Ne.symm hr] using this
      · intro r
        rw [ht]
        have := ih.count r
        show (_ ++ if r = l.run then rest else []).length + s.lost r = (Emu.expected c.emu c.t0 (s.iters r)).length
        rw [h1]
        by_cases hr : r = s.link.run
        · subst hr; simp [hq] at this ⊢; omega
        · simpa [hr, Ne.symm hr] using this
      · have := ih.room
        rw [hq] at this
        simp only [St.take]
        simp at this; omega
    | stopLink hc hp =>
      exact ⟨.step _ _ ih.reach (.stopCall _ hp), by simp, by simp,
        fun h => (by have := ih.up h; rw [hc] at this; cases this), ih.prod, ih.later, ih.logs, ih.flow, ih.count, ih.room⟩
    | other l st hlog hph =>
      have hr := step_run st hph
      refine ⟨.step _ _ ih.reach st, ?_, by simpa [hr] using ih.fresh, ih.up, by simpa [hr] using ih.prod,
        by simpa [hr] using ih.later, ?_, by simpa [hr, takenIn] using ih.flow, by simpa [hr, takenIn] using ih.count, ih.room⟩
      · intro hc
        obtain ⟨h1, h2⟩ := ih.down hc
        rcases hph with h | h
        · exact ⟨h.trans h1, h2⟩
        · rw [h1] at h; cases h.1
      · intro r
        show runLog l.log r = _
        rw [hlog]; exact ih.logs r
    | finish l hq hp hc he =>
      obtain ⟨h1, h2, h3⟩ := finish_eq he
      refine ⟨.step _ _ ih.reach (.finish _ _ hp he), fun _ => ⟨h3, hq⟩, by simp, ?_, by simpa [h2] using ih.prod,
        by simpa [h2] using ih.later, ?_, by simpa [h2, takenIn] using ih.flow, by simpa [h2, takenIn] using ih.count, ih.room⟩
      · intro h; have := ih.up h; rw [hc] at this; cases this
      · intro r
        show runLog l.log r = _
        rw [h1]; exact ih.logs r

/-! ### Timestamps of the emulator -/

theorem u64_id {a : Nat} (h : a < 18446744073709551616) : u64 a = a := Nat.mod_eq_of_lt h

theorem expected_all {c : Cfg} (hd : NoDropout c) (n : Nat) :
    Emu.expected c.emu c.t0 n
      = (List.range n).map (fun k => (Emu.element c.emu (k % Emu.numElem c.emu), u64 (c.t0 + k * stride c))) := by
  have hf : ∀ m, (List.range m).filter (Emu.creates c.emu) = List.range m := by
    intro m; rw [List.filter_eq_self]; intro a _; exact hd a
  simp only [Emu.expected, hf, Emu.created, List.length_range]
  rfl

/-- Iteration numbers behind a sublist of the emulator's output. -/
theorem sublist_stamps {c : Cfg} {l : List (List Nat × Nat)} {n : Nat}
    (h : l.Sublist (Emu.expected c.emu c.t0 n)) (hw : c.t0 + n * stride c < 18446744073709551616) :
    ∃ ks : List Nat, ks.Pairwise (· < ·) ∧ (∀ k ∈ ks, k < n) ∧ l.map (·.2) = ks.map (fun k => c.t0 + k * stride c) := by
  obtain ⟨ks, h1, h2⟩ := List.sublist_map_iff.1 h
  have hb : ∀ k ∈ ks, k < n := fun k hk =>
    List.mem_range.1 ((List.filter_sublist (p := Emu.creates c.emu) (l := List.range n)).subset (h1.subset hk))
  refine ⟨ks, (List.pairwise_lt_range.sublist (List.filter_sublist)).sublist h1, hb, ?_⟩
  rw [h2, List.map_map]
  apply List.map_congr_left
  intro k hk
  have := Nat.mul_le_mul_right (stride c) (Nat.le_of_lt (hb k hk))
  exact u64_id (by show c.t0 + k * stride c < _; omega)

theorem stamps_steady {c : Cfg} {ks : List Nat} {n : Nat} (h1 : ks.Pairwise (· < ·))
    (h2 : ∀ k ∈ ks, k < n) (hw : c.t0 + n * stride c < 18446744073709551616) :
    Steady (stride c) (ks.map (fun k => c.t0 + k * stride c)) := by
  refine ⟨?_, ?_⟩
  · rw [List.pairwise_map]
    refine h1.imp ?_
    intro a b hab
    have := Nat.mul_le_mul_right (stride c) (Nat.succ_le_of_lt hab)
    rw [Nat.succ_mul] at this
    omega
  · intro t ht
    obtain ⟨k, hk, rfl⟩ := List.mem_map.1 ht
    have := Nat.mul_le_mul_right (stride c) (Nat.succ_le_of_lt (h2 k hk))
    rw [Nat.succ_mul] at this
    omega

/-! ### Property C92 -/

/-- **C92 (delivery)** Over any number of runs and in any interleaving of producer, consumer, requests, cleanups and
commands: what the link took in a run (with what is still in the queue) is, in order and byte for byte, what the
emulator was to emit in the iterations of that run, except payloads that found the queue full, and these are
counted exactly. With no such loss a drained link has received all of it. The link's own log of the run
carries exactly the timestamps of these payloads. -/
theorem C92_delivery (c : Cfg) (n : Nat) (hm : Matched c) (s : St) (h : Reach c n s) (r : Nat) :
    (takenIn s r ++ (if r = s.link.run then s.queue else [])).Sublist (Emu.expected c.emu c.t0 (s.iters r)) ∧
    (takenIn s r ++ (if r = s.link.run then s.queue else [])).length + s.lost r
      = (Emu.expected c.emu c.t0 (s.iters r)).length ∧
    (s.lost r = 0 → (r ≠ s.link.run ∨ s.queue = []) → takenIn s r = Emu.expected c.emu c.t0 (s.iters r)) ∧
    runLog s.link.log r = (takenIn s r).map (·.2) := by
  have inv := inv_reach hm h
  refine ⟨inv.flow r, inv.count r, ?_, inv.logs r⟩
  intro hl hq
  have e : (if r = s.link.run then s.queue else []) = [] := by
    rcases hq with hq | hq <;> simp [hq]
  have h1 := inv.flow r
  have h2 := inv.count r
  rw [e, List.append_nil] at h1 h2
  exact h1.eq_of_length (by omega)

theorem window_split {tick j t0 : Nat} : t0 + j / 12 * (tick * 12) + j % 12 * tick = t0 + j * tick := by
  have h : j * tick = (j / 12 * 12 + j % 12) * tick := by rw [Nat.div_add_mod']
  rw [h, Nat.add_mul, Nat.mul_assoc, Nat.mul_comm 12 tick]
  omega

theorem taken_prefix {c : Cfg} {n : Nat} {s : St} (inv : Inv c n s) (hd : NoDropout c) (r : Nat)
    (hl : s.lost r = 0) : ∃ m, m ≤ s.iters r ∧ takenIn s r = Emu.expected c.emu c.t0 m := by
  have h1 := inv.flow r
  have h2 := inv.count r
  have h3 := h1.eq_of_length (by omega)
  refine ⟨(takenIn s r).length, ?_, ?_⟩
  · have := congrArg List.length h3
    rw [expected_all hd] at this
    simp at this; omega
  · have h4 : takenIn s r = (Emu.expected c.emu c.t0 (s.iters r)).take (takenIn s r).length := by
      rw [← h3, List.take_left]
    have h5 : (takenIn s r).length ≤ s.iters r := by
      have := congrArg List.length h3
      rw [expected_all hd] at this
      simp at this; omega
    rw [expected_all hd] at h4 ⊢
    rw [← List.map_take, List.take_range, Nat.min_eq_left h5] at h4
    exact h4

/-- **C92 (partial)** An emulator without dropouts feeds a link of the same kind. Take any history of runs, and a
fragment sent without the error bit in a run in which no payload found the raw data queue or the latency
buffer full. Then the fragment has exactly one frame for every sample time of the emulator in the requested window
(sample `j` of the run is at `t0 + j * tick`, frame `j % 12` of payload `j / 12`), in time order, and payload `k`
is element `k` of the file, taken cyclically. Missing: runs with lost payloads, where the claim is
false (see below), and clocks within one payload of 2^64. -/
theorem C92_fragment_is_file_data_partial (c : Cfg) (n : Nat) (hm : Matched c) (hc : Link c.link n)
    (hd : NoDropout c) (s : St) (h : Reach c n s) (e : Session.Sent) (he : e ∈ s.link.sent)
    (hok : e.frag.header.dataNotFound = false)
    (hlost : s.lost e.run = 0) (hst : AllStored s.link.log e.run)
    (hw : c.t0 + s.iters e.run * stride c < 18446744073709551616)
    (hw2 : e.req.dr.wEnd + stride c < 18446744073709551616) :
    (∀ j : Nat, e.req.dr.wBegin ≤ c.t0 + j * c.emu.tick → c.t0 + j * c.emu.tick < e.req.dr.wEnd →
      (c.t0 + j / 12 * stride c, j % 12) ∈ e.frag.frames) ∧
    (∀ f ∈ e.frag.frames, ∃ j : Nat, f = (c.t0 + j / 12 * stride c, j % 12) ∧
      e.req.dr.wBegin ≤ c.t0 + j * c.emu.tick ∧ c.t0 + j * c.emu.tick < e.req.dr.wEnd ∧
      (Emu.element c.emu (j / 12 % Emu.numElem c.emu), f.1) ∈ takenIn s e.run) ∧
    e.frag.frames.Pairwise (fun f g => f.1 + f.2 * c.emu.tick < g.1 + g.2 * c.emu.tick) := by
  have inv := inv_reach hm h
  obtain ⟨l, sinv⟩ := Session.inv_reach hc inv.reach
  have right := sinv.right e he
  obtain ⟨m, hmle, htk⟩ := taken_prefix inv hd e.run hlost
  have hstep : c.link.tick * c.link.nf = stride c := by rw [stride, hm.tick, hm.nf]
  have hmw : c.t0 + m * stride c < 18446744073709551616 := by
    have := Nat.mul_le_mul_right (stride c) hmle
    omega
  have hlog : runLog s.link.log e.run = (List.range m).map (fun k => c.t0 + k * stride c) := by
    rw [inv.logs, htk, expected_all hd, List.map_map]
    apply List.map_congr_left
    intro k hk
    have := Nat.mul_le_mul_right (stride c) (Nat.le_of_lt (List.mem_range.1 hk))
    exact u64_id (by omega)
  -- exactness with respect to the log extended up to iteration `K`
  have ext : ∀ K, m ≤ K → c.t0 + K * stride c < 18446744073709551616 →
      (∀ f, f ∈ e.frag.frames ↔ InWindow c.link.tick c.link.nf
        ((List.range K).map (fun k => c.t0 + k * stride c)) e.req.dr.wBegin e.req.dr.wEnd f) ∧
      e.frag.frames.Pairwise (fun f g => f.1 + f.2 * c.link.tick < g.1 + g.2 * c.link.tick) := by
    intro K hK hKw
    have hsplit : (List.range K).map (fun k => c.t0 + k * stride c)
        = runLog s.link.log e.run ++ ((List.range (K - m)).map (fun k => c.t0 + (m + k) * stride c)) := by
      rw [hlog]
      have : K = m + (K - m) := by omega
      rw [this, List.range_add, List.map_append, List.map_map]
      simp only [Nat.add_sub_cancel_left]
      rfl
    have hsteady : Steady (c.link.tick * c.link.nf) ((List.range K).map (fun k => c.t0 + k * stride c)) := by
      rw [hstep]
      exact stamps_steady List.pairwise_lt_range (fun k hk => List.mem_range.1 hk) hKw
    have := right.exact hst hok _ (by rw [← hsplit]; exact hsteady)
    rwa [← hsplit] at this
  obtain ⟨base, sorted⟩ := ext m (Nat.le_refl m) hmw
  refine ⟨?_, ?_, by rw [hm.tick]; exact sorted⟩
  · intro j h1 h2
    have hlt : c.t0 + j / 12 * stride c ≤ c.t0 + j * c.emu.tick := by
      have := @window_split c.emu.tick j c.t0
      have e2 : stride c = c.emu.tick * 12 := rfl
      rw [e2]; omega
    have hK : c.t0 + (max m (j / 12 + 1)) * stride c < 18446744073709551616 := by
      rcases Nat.le_total m (j / 12 + 1) with hle | hle
      · rw [Nat.max_eq_right hle, Nat.succ_mul]; omega
      · rw [Nat.max_eq_left hle]; exact hmw
    refine ((ext _ (Nat.le_max_left _ _) hK).1 _).2 ⟨?_, ?_, ?_, ?_⟩
    · refine List.mem_map.2 ⟨j / 12, List.mem_range.2 ?_, rfl⟩
      have := Nat.le_max_right m (j / 12 + 1)
      omega
    · rw [hm.nf]; exact Nat.mod_lt _ (by omega)
    · rw [← hm.tick]
      have := @window_split c.emu.tick j c.t0
      show _ ≤ c.t0 + j / 12 * (c.emu.tick * 12) + j % 12 * c.emu.tick
      omega
    · rw [← hm.tick]
      have := @window_split c.emu.tick j c.t0
      show c.t0 + j / 12 * (c.emu.tick * 12) + j % 12 * c.emu.tick < _
      omega
  · intro f hf
    obtain ⟨h1, h2, h3, h4⟩ := (base f).1 hf
    obtain ⟨k, hk, hke⟩ := List.mem_map.1 h1
    rw [hm.nf] at h2
    rw [← hm.tick] at h3 h4
    have hj1 : (k * 12 + f.2) / 12 = k := by omega
    have hj2 : (k * 12 + f.2) % 12 = f.2 := by omega
    have hsum : c.t0 + (k * 12 + f.2) * c.emu.tick = f.1 + f.2 * c.emu.tick := by
      have := @window_split c.emu.tick (k * 12 + f.2) c.t0
      rw [hj1, hj2] at this
      rw [← this, ← hke]; rfl
    refine ⟨k * 12 + f.2, ?_, by rw [hsum]; exact h3, by rw [hsum]; exact h4, ?_⟩
    · rw [hj1, hj2, hke]
    · rw [hj1, htk, expected_all hd]
      refine List.mem_map.2 ⟨k, hk, ?_⟩
      have := Nat.mul_le_mul_right (stride c) (Nat.le_of_lt (List.mem_range.1 hk))
      rw [u64_id (by omega), hke]

/-! ### Reported gaps -/

theorem breaks_append (step p : Nat) (ts : List Nat) (t : Nat) :
    breaks step p (ts ++ [t]) = breaks step p ts + brk step (ts.getLast?.getD p) t := by
  induction ts generalizing p with
  | nil => simp [breaks]
  | cons a ts ih =>
    rw [List.cons_append, breaks, breaks, ih, List.getLast?_cons]
    simp only [Option.getD_some]
    omega

/-- The link's processor within a run: errors counted and previous timestamp. -/
structure Chk (c : Session.Cfg) (s : Session.St) : Prop where
  log64 : ∀ a ∈ s.log, a.ts < 18446744073709551616
  errors : s.p.ck.errors = breaks (c.tick * c.nf) 0 (runLog s.log s.run)
  prev : s.p.ck.prev = (runLog s.log s.run).getLast?.getD 0
  past : ∀ a ∈ s.log, a.run ≤ s.run

theorem chk_frame {c : Session.Cfg} {s s' : Session.St} (h : Chk c s) (h1 : s'.log = s.log) (h2 : s'.run = s.run)
    (h3 : s'.p.ck.errors = s.p.ck.errors) (h4 : s'.p.ck.prev = s.p.ck.prev) : Chk c s' := by
  refine ⟨?_, ?_, ?_, ?_⟩
  · rw [h1]; exact h.log64
  · rw [h1, h2, h3]; exact h.errors
  · rw [h1, h2, h4]; exact h.prev
  · rw [h1, h2]; exact h.past

theorem chk_start {c : Session.Cfg} {s : Session.St} (hr : c.resets = true) (h : Chk c s) :
    Chk c (Session.startCmd c s) := by
  have hempty : runLog s.log (s.run + 1) = [] := by
    simp only [runLog, List.map_eq_nil_iff, List.filter_eq_nil_iff]
    intro a ha
    have := h.past a ha
    simp; omega
  refine ⟨h.log64, ?_, ?_, ?_⟩
  · simp [Session.startCmd, hr, hempty, breaks]
  · simp [Session.startCmd, hr, hempty]
  · intro a ha
    have := h.past a ha
    simp only [Session.startCmd]; omega

theorem check_errors {k : TsCheck.St} {t step : Nat} (hp : k.prev < 18446744073709551616)
    (ht : t < 18446744073709551616) (hs : step < 18446744073709551616) :
    (TsCheck.check step k t).errors = k.errors + brk step k.prev t := by
  have h := @TsCheck.sub_test k.prev t step hp ht hs
  unfold TsCheck.check brk
  by_cases hb : u64 (t + 18446744073709551616 - k.prev) = step
  · rw [if_pos (h.1 hb), if_neg (fun hn => hn hb)]; rfl
  · rw [if_neg (fun hc => hb (h.2 hc)), if_pos hb]

theorem chk_receive {c : Session.Cfg} (hstep : c.tick * c.nf < 18446744073709551616) {s s' : Session.St} {t : Nat}
    (ht : t < 18446744073709551616) (h : Chk c s) (he : Session.receive c s t = .ok s') : Chk c s' := by
  simp only [Session.receive, Pipeline.receive] at he
  cases hw : s.p.q.write t with
  | ub w => simp [hw] at he
  | throws w => simp [hw] at he
  | ok r =>
    simp only [hw, Outcome.bind_ok] at he
    injection he with he
    have hprev : s.p.ck.prev < 18446744073709551616 := by
      rw [h.prev]
      cases hl : (runLog s.log s.run).getLast? with
      | none => simp
      | some x =>
        obtain ⟨a, ha, hx⟩ := List.mem_map.1 (List.mem_of_getLast? hl)
        rw [Option.getD_some, ← hx]
        exact h.log64 a (List.mem_of_mem_filter ha)
    rw [← he]
    refine ⟨?_, ?_, ?_, ?_⟩
    · intro a ha
      rcases List.mem_append.1 ha with ha | ha
      · exact h.log64 a ha
      · simp at ha; rw [ha]; exact ht
    · simp only [Session.runLog_append, if_true, breaks_append, ← h.prev, ← h.errors]
      exact check_errors hprev ht hstep
    · simp [Session.runLog_append, TsCheck.check]
    · intro a ha
      rcases List.mem_append.1 ha with ha | ha
      · exact h.past a ha
      · simp at ha; rw [ha]

theorem chk_other {c : Session.Cfg} {s s' : Session.St} (st : Session.Step c s s') (hlog : s'.log = s.log)
    (hrun : s'.run = s.run) (h : Chk c s) : Chk c s' := by
  cases st with
  | start hp => simp [Session.startCmd] at hrun
  | receive _ t hp he =>
    obtain ⟨-, -, b, h3⟩ := receive_eq he
    rw [h3] at hlog
    have := congrArg List.length hlog
    simp at this
  | clean _ a b d hp he =>
    simp only [Session.clean, Pipeline.clean] at he
    cases hr : Cleanup.cleanup id a b d s.p.q s.p.ck.reg with
    | ub w => simp [hr] at he
    | throws w => simp [hr] at he
    | ok r => simp [hr] at he; rw [← he] at hlog hrun ⊢; exact chk_frame h hlog hrun rfl rfl
  | finish _ hp he =>
    simp only [Session.finish] at he
    cases hr : s.p.q.flush with
    | ub w => simp [hr] at he
    | throws w => simp [hr] at he
    | ok r => simp [hr] at he; rw [← he] at hlog hrun ⊢; exact chk_frame h hlog hrun rfl rfl
  | _ => exact chk_frame h hlog hrun rfl rfl

theorem chk_reach {c : Cfg} {n : Nat} (hm : Matched c) (hstep : c.link.tick * c.link.nf < 18446744073709551616)
    (hr : c.link.resets = true) {s : St} (h : Reach c n s) : Chk c.link s.link := by
  induction h with
  | init =>
    refine ⟨?_, ?_, ?_, ?_⟩ <;> simp [St.init, Session.St.init, runLog, breaks]
  | step s s' hreach st ih =>
    have inv := inv_reach hm hreach
    cases st with
    | startLink hc => exact chk_start hr ih
    | startCard hc => exact ih
    | produce e e' hp he => unfold push; split <;> exact ih
    | stopCard hc => exact ih
    | consume x rest l hq hp he =>
      refine chk_receive hstep ?_ ih he
      have hx : x ∈ Emu.expected c.emu c.t0 (s.iters s.link.run) :=
        (inv.flow s.link.run).subset (by simp [hq])
      obtain ⟨k, -, rfl⟩ := List.mem_map.1 hx
      exact TsCheck.u64_lt _
    | stopLink hc hp => exact chk_frame ih rfl rfl rfl rfl
    | other l st hlog hph => exact chk_other st hlog (step_run st hph) ih
    | finish l hq hp hc he =>
      obtain ⟨h1, h2, -⟩ := finish_eq he
      exact chk_other (.finish _ _ hp he) h1 h2 ih

theorem breaks_stamps {c : Cfg} (m k0 : Nat) (hw : c.t0 + (k0 + m) * stride c < 18446744073709551616) :
    breaks (stride c) (c.t0 + k0 * stride c) ((List.range m).map (fun k => c.t0 + (k0 + 1 + k) * stride c)) = 0 := by
  induction m generalizing k0 with
  | zero => rfl
  | succ m ih =>
    rw [List.range_succ_eq_map, List.map_cons, List.map_map, breaks]
    have hle : (k0 + 1) * stride c ≤ (k0 + (m + 1)) * stride c := Nat.mul_le_mul_right _ (by omega)
    have h1 : brk (stride c) (c.t0 + k0 * stride c) (c.t0 + (k0 + 1 + 0) * stride c) = 0 := by
      unfold brk
      rw [Nat.add_zero, Nat.mod_eq_of_lt (by rw [Nat.succ_mul] at hle; omega), if_pos]
      rw [Nat.succ_mul]; omega
    rw [h1, Nat.zero_add]
    have := ih (k0 + 1) (by rw [show k0 + 1 + m = k0 + (m + 1) by omega]; exact hw)
    rw [Nat.add_zero]
    rw [← this]
    congr 1
    apply List.map_congr_left
    intro k _
    show c.t0 + (k0 + 1 + (k + 1)) * stride c = c.t0 + (k0 + 1 + 1 + k) * stride c
    rw [show k0 + 1 + (k + 1) = k0 + 1 + 1 + k by omega]

/-- **C92 (reports)** A link whose processor starts each run afresh counts in every run exactly the breaks in what it
received, the first payload being compared with time zero. If the emulator has no dropouts and no payload of the
run was lost, it counts exactly one error as soon as the first payload has arrived, unless the emulator begins one
payload after time zero: the first payload is always reported as a gap, and nothing after it. -/
theorem C92_reported_gaps (c : Cfg) (n : Nat) (hm : Matched c) (hstep : stride c < 18446744073709551616)
    (hr : c.link.resets = true) (s : St) (h : Reach c n s) :
    s.link.p.ck.errors = breaks (stride c) 0 (runLog s.link.log s.link.run) ∧
    (NoDropout c → s.lost s.link.run = 0 →
      c.t0 + s.iters s.link.run * stride c < 18446744073709551616 → c.t0 ≠ stride c →
      s.link.p.ck.errors = if takenIn s s.link.run = [] then 0 else 1) := by
  have inv := inv_reach hm h
  have hst : c.link.tick * c.link.nf = stride c := by rw [stride, hm.tick, hm.nf]
  have chk := chk_reach hm (by rw [hst]; exact hstep) hr h
  have ce := chk.errors
  rw [hst] at ce
  refine ⟨ce, ?_⟩
  intro hd hl hw ht
  obtain ⟨m, hmle, htk⟩ := taken_prefix inv hd s.link.run hl
  rw [ce, inv.logs, htk, expected_all hd, List.map_map]
  cases m with
  | zero => simp [breaks]
  | succ m =>
    rw [if_neg (by simp)]
    have e : (List.range (m + 1)).map ((fun x : List Nat × Nat => x.2) ∘ fun k =>
        (Emu.element c.emu (k % Emu.numElem c.emu), u64 (c.t0 + k * stride c)))
        = c.t0 :: (List.range m).map (fun k => c.t0 + (0 + 1 + k) * stride c) := by
      rw [List.range_succ_eq_map, List.map_cons, List.map_map]
      congr 1
      · show u64 (c.t0 + 0 * stride c) = c.t0
        rw [Nat.zero_mul]; exact u64_id hm.t0
      · apply List.map_congr_left
        intro k hk
        show u64 (c.t0 + (k + 1) * stride c) = _
        have h1 := List.mem_range.1 hk
        have h2 : (k + 1) * stride c ≤ s.iters s.link.run * stride c := Nat.mul_le_mul_right _ (by omega)
        rw [u64_id (by omega), show 0 + 1 + k = k + 1 by omega]
    rw [e, breaks]
    have h2 : (0 + m) * stride c ≤ s.iters s.link.run * stride c := Nat.mul_le_mul_right _ (by omega)
    have h3 := breaks_stamps (c := c) m 0 (by omega)
    rw [Nat.zero_mul, Nat.add_zero] at h3
    rw [h3]
    unfold brk
    rw [if_neg]
    rw [Nat.zero_add, Nat.mod_eq_of_lt hstep]
    exact ht

/-! ### A concrete emulated link: a file of two payloads (of one byte each, to keep it small), WIB timing -/

/-- Queue of two payloads. -/
def wib : Cfg := ⟨⟨[7, 8], 1, 25, [true]⟩, 1000, Session.wib, 2⟩

theorem wib_matched : Matched wib :=
  ⟨rfl, rfl, by decide, by decide, by decide, by decide⟩

theorem wib_nodropout : NoDropout wib := by intro i; simp [Emu.creates, wib, Nat.mod_one]

theorem prod {c : Cfg} {s s' : St} {e e' : Emu.St} (h : s.prod = some e) (he : Emu.iter c.emu e = .ok e')
    (hs : s' = push c s e' (fresh e e')) : Step c s s' := hs ▸ .produce s e e' h he

theorem cons {c : Cfg} {s : St} {x : List Nat × Nat} {rest : List (List Nat × Nat)} {p : Pipeline.St} {b : Bool}
    (hq : s.queue = x :: rest) (hp : s.link.phase ≠ .idle)
    (h : Pipeline.receive (c.link.tick * c.link.nf) s.link.p x.2 = .ok (p, b)) :
    Step c s (s.take x rest { s.link with p := p, log := s.link.log ++ [⟨s.link.run, x.2, b⟩] }) :=
  .consume s x rest _ hq hp (Session.recv h)

/-- Three payloads are emitted and received, the window [1250, 1350) is requested and answered. -/
theorem demo : ∃ s, Reach wib 4 s ∧ s.link.run = 1 ∧ s.lost 1 = 0 ∧ s.iters 1 = 3 ∧
    takenIn s 1 = [([7], 1000), ([8], 1300), ([7], 1600)] ∧ (∀ a ∈ s.link.log, a.stored = true) ∧
    ∃ e ∈ s.link.sent, e.run = 1 ∧ e.req.dr = ⟨1, 1300, 1250, 1350, 5, 0⟩ ∧
      e.frag.header.dataNotFound = false ∧ e.frag.frames = [(1000, 10), (1000, 11), (1300, 0), (1300, 1)] := by
  have r0 : Reach wib 4 _ := .init
  have r1 := Reach.step _ _ r0 (.startLink _ rfl)
  have r2 := Reach.step _ _ r1 (.startCard _ rfl)
  have r3 := Reach.step _ _ r2 (prod rfl rfl rfl)
  have r4 := Reach.step _ _ r3 (prod rfl rfl rfl)
  have r5 := Reach.step _ _ r4 (cons rfl (by decide) rfl)
  have r6 := Reach.step _ _ r5 (cons rfl (by decide) rfl)
  have r7 := Reach.step _ _ r6 (prod rfl rfl rfl)
  have r8 := Reach.step _ _ r7 (cons rfl (by decide) rfl)
  have r9 := Reach.step _ _ r8 (.other _ _ (.issue _ ⟨1, 1300, 1250, 1350, 5, 0⟩ (Or.inl rfl)) rfl (Or.inl rfl))
  have r10 := Reach.step _ _ r9 (.other _ _ (.reply _ ⟨⟨1, 1300, 1250, 1350, 5, 0⟩, 1⟩ _ _ List.mem_cons_self (Or.inl rfl) rfl rfl) rfl (Or.inl rfl))
  exact ⟨_, r10, rfl, rfl, rfl, rfl, by decide, _, List.mem_cons_self, rfl, rfl, rfl, rfl⟩

/-- The hypotheses of C92 are met there. -/
example : ∃ s, Reach wib 4 s ∧ Matched wib ∧ Link wib.link 4 ∧ NoDropout wib ∧ s.lost 1 = 0 ∧
    AllStored s.link.log 1 ∧ wib.t0 + s.iters 1 * stride wib < 18446744073709551616 ∧
    ∃ e ∈ s.link.sent, e.run = 1 ∧ e.frag.header.dataNotFound = false ∧ e.frag.frames.length = 4 ∧
      e.req.dr.wBegin ≤ e.req.dr.wEnd ∧ e.req.dr.wEnd + stride wib < 18446744073709551616 := by
  obtain ⟨s, h, -, hl, hi, -, ha, e, he, h1, h2, h3, h4⟩ := demo
  refine ⟨s, h, wib_matched, Session.wib_link, wib_nodropout, hl, fun a ha' _ => ha a ha', ?_, e, he, h1, h3, ?_, ?_, ?_⟩
  · rw [hi]; decide
  · rw [h4]; rfl
  · rw [h2]; decide
  · rw [h2]; decide

/-- ... and those of the report theorem: one error, for the first payload. -/
example : ∃ s, Reach wib 4 s ∧ wib.link.resets = true ∧ wib.t0 ≠ stride wib ∧ s.link.p.ck.errors = 1 := by
  obtain ⟨s, h, hr, hl, hi, ht, -⟩ := demo
  refine ⟨s, h, rfl, by decide, ?_⟩
  have := (C92_reported_gaps wib 4 wib_matched (by decide) rfl s h).2 wib_nodropout (by rw [hr]; exact hl)
    (by rw [hr, hi]; decide) (by decide)
  rw [this, hr, ht]; rfl

/-- **C92 is false of the code** when the raw data queue was full: the second of four payloads is lost with
a warning, the gap is even known to the link, and still the request for exactly its time [1300, 1600) is
answered without error bit and without a single frame. -/
theorem C92_lost_payload_counterexample :
    ∃ s, Reach { wib with cap := 1 } 4 s ∧ s.lost 1 = 1 ∧ s.warned = 1 ∧
      takenIn s 1 = [([7], 1000), ([7], 1600), ([8], 1900)] ∧ (∀ a ∈ s.link.log, a.stored = true) ∧
      s.link.p.ck.reg = [("MISSING_FRAMES", ⟨1300, 1600⟩)] ∧
      ∃ e ∈ s.link.sent, e.run = 1 ∧ e.req.dr = ⟨1, 1300, 1300, 1600, 5, 0⟩ ∧
        e.frag.header.dataNotFound = false ∧ e.frag.frames = [] := by
  have r0 : Reach { wib with cap := 1 } 4 _ := .init
  have r1 := Reach.step _ _ r0 (.startLink _ rfl)
  have r2 := Reach.step _ _ r1 (.startCard _ rfl)
  have r3 := Reach.step _ _ r2 (prod rfl rfl rfl)
  have r4 := Reach.step _ _ r3 (prod rfl rfl rfl)
  have r5 := Reach.step _ _ r4 (cons rfl (by decide) rfl)
  have r6 := Reach.step _ _ r5 (prod rfl rfl rfl)
  have r7 := Reach.step _ _ r6 (cons rfl (by decide) rfl)
  have r8 := Reach.step _ _ r7 (prod rfl rfl rfl)
  have r9 := Reach.step _ _ r8 (cons rfl (by decide) rfl)
  have r10 := Reach.step _ _ r9 (.other _ _ (.issue _ ⟨1, 1300, 1300, 1600, 5, 0⟩ (Or.inl rfl)) rfl (Or.inl rfl))
  have r11 := Reach.step _ _ r10 (.other _ _ (.reply _ ⟨⟨1, 1300, 1300, 1600, 5, 0⟩, 1⟩ _ _ List.mem_cons_self (Or.inl rfl) rfl rfl) rfl (Or.inl rfl))
  exact ⟨_, r11, rfl, rfl, rfl, by decide, rfl, _, List.mem_cons_self, rfl, rfl, rfl, rfl⟩

end Verif.EmuLink
