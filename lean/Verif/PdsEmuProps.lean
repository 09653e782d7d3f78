import Verif.PdsEmuModel
import Verif.EmuLinkProps
import Verif.PdsLinkProps
/- Property C106: a request to an emulated photon-detector link is answered with the data of the emulator's file. -/
namespace Verif.PdsEmu
open Verif.Search (u64)
open Verif.Session (runLog AllStored InWindow)
open Verif.PdsLink (storedLog Forward Kind)
open Verif.EmuLink (Cfg St push fresh bump takenIn Matched stride finish_eq step_run)

/-! ### The invariant -/

structure Inv (c : Cfg) (n : Nat) (s : St) : Prop where
  reach : PdsLink.Reach c.link n s.link
  down : s.ctl = .down → s.link.phase = .idle ∧ s.queue = []
  fresh : s.ctl = .linkUp → s.iters s.link.run = 0
  up : s.prod ≠ none → s.ctl = .up
  prod : ∀ e, s.prod = some e → Emu.Inv c.emu c.t0 (s.iters s.link.run) e
  later : ∀ r, s.link.run < r → s.iters r = 0 ∧ s.lost r = 0 ∧ ∀ x ∈ s.taken, x.1 ≠ r
  logs : ∀ r, runLog s.link.log r = (takenIn s r).map (·.2)
  flow : ∀ r, (takenIn s r ++ (if r = s.link.run then s.queue else [])).Sublist
      (Emu.expected c.emu c.t0 (s.iters r))
  count : ∀ r, (takenIn s r ++ (if r = s.link.run then s.queue else [])).length + s.lost r
      = (Emu.expected c.emu c.t0 (s.iters r)).length
  room : s.queue.length ≤ c.cap

theorem receive_eq {l l' : Session.St} {t : Nat} (he : PdsLink.receive l t = .ok l') :
    l'.run = l.run ∧ l'.phase = l.phase ∧ ∃ b, l'.log = l.log ++ [⟨l.run, t, b⟩] := by
  simp only [PdsLink.receive] at he
  cases h : l.p.q.write t with
  | ub w => simp [h] at he
  | throws w => simp [h] at he
  | ok r => simp [h] at he; rw [← he]; exact ⟨rfl, rfl, _, rfl⟩

theorem inv_reach {c : Cfg} {n : Nat} (hm : Matched c) {s : St} (h : Reach c n s) : Inv c n s := by
  induction h with
  | init =>
    refine ⟨.init, fun _ => ⟨rfl, rfl⟩, by simp [EmuLink.St.init], by simp [EmuLink.St.init], by simp [EmuLink.St.init], ?_, ?_, ?_, ?_, ?_⟩
    · intro r _; simp [EmuLink.St.init]
    · intro r; simp [EmuLink.St.init, runLog, Session.St.init, takenIn]
    · intro r
      show ([] ++ if r = 0 then [] else []).Sublist ([] : List (List Nat × Nat))
      simp
    · intro r
      show (([] : List (List Nat × Nat)) ++ if r = 0 then [] else []).length + 0 = 0
      simp
    · simp [EmuLink.St.init]
  | step s s' _ st ih =>
    cases st with
    | startLink hc =>
      obtain ⟨hp, hq⟩ := ih.down hc
      have hpn : s.prod = none := by
        by_contra hne
        have := ih.up hne
        rw [hc] at this; cases this
      obtain ⟨l1, l2, l3⟩ := ih.later (s.link.run + 1) (by omega)
      refine ⟨.step _ _ ih.reach (.other _ _ (.start _ hp) rfl), by simp, fun _ => l1, by simp [hpn], by simp [hpn], ?_, ?_, ?_, ?_, ih.room⟩
      · intro r hr
        exact ih.later r (by simp only [Session.startCmd] at hr; omega)
      · intro r; exact ih.logs r
      · intro r
        have := ih.flow r
        simp only [hq, ite_self, List.append_nil] at this ⊢
        exact this
      · intro r
        have := ih.count r
        simp only [hq, ite_self, List.append_nil] at this ⊢
        exact this
    | startCard hc =>
      refine ⟨ih.reach, by simp, by simp, by simp, ?_, ih.later, ih.logs, ih.flow, ih.count, ih.room⟩
      intro e he
      injection he with he
      subst he
      show Emu.Inv c.emu c.t0 (s.iters s.link.run) _
      rw [ih.fresh hc]
      exact Emu.begin_inv c.emu c.t0 hm.t0
    | produce e e' hp he =>
      have hup := ih.up (by simp [hp])
      have einv := ih.prod e hp
      obtain ⟨e2, h1, h2⟩ := Emu.iter_inv c.emu c.t0 hm.pos hm.file hm.drops _ einv
      rw [he] at h1; injection h1 with h1; subst h1
      have hf : fresh e e' = (if Emu.creates c.emu (s.iters s.link.run) then
          [(Emu.element c.emu (Emu.created c.emu (s.iters s.link.run) % Emu.numElem c.emu),
            u64 (c.t0 + s.iters s.link.run * (c.emu.tick * 12)))] else []) := by
        rw [fresh, h2.out, einv.out, Emu.expected_succ, List.drop_left]
      have hex : Emu.expected c.emu c.t0 (s.iters s.link.run + 1)
          = Emu.expected c.emu c.t0 (s.iters s.link.run) ++ fresh e e' := by
        rw [Emu.expected_succ, hf]
      have hl : (fresh e e').length ≤ 1 := by rw [hf]; split <;> simp
      generalize fresh e e' = xs at *
      unfold push
      split
      · rename_i hroom
        refine ⟨ih.reach, by simp [hup], by simp [hup], by simp [hup], ?_, ?_, ih.logs, ?_, ?_, by simpa using hroom⟩
        · intro e1 h1
          injection h1 with h1; subst h1
          simpa [bump] using h2
        · intro r hr
          have hr : s.link.run < r := hr
          have := ih.later r hr
          have hne : r ≠ s.link.run := by omega
          simpa [bump, hne] using this
        · intro r
          by_cases hr : r = s.link.run
          · subst hr
            have := ih.flow s.link.run
            simp only [if_true, bump, hex, takenIn] at this ⊢
            rw [← List.append_assoc]
            exact this.append (List.Sublist.refl _)
          · have := ih.flow r
            simpa [bump, hr, takenIn] using this
        · intro r
          by_cases hr : r = s.link.run
          · subst hr
            have := ih.count s.link.run
            simp only [if_true, bump, hex, takenIn, List.length_append] at this ⊢
            omega
          · have := ih.count r
            simpa [bump, hr, takenIn] using this
      · refine ⟨ih.reach, by simp [hup], by simp [hup], by simp [hup], ?_, ?_, ih.logs, ?_, ?_, ih.room⟩
        · intro e1 h1
          injection h1 with h1; subst h1
          simpa [bump] using h2
        · intro r hr
          have hr : s.link.run < r := hr
          have := ih.later r hr
          have hne : r ≠ s.link.run := by omega
          simpa [bump, hne] using this
        · intro r
          by_cases hr : r = s.link.run
          · subst hr
            have := ih.flow s.link.run
            simp only [if_true, bump, hex, takenIn] at this ⊢
            exact this.trans (List.sublist_append_left _ _)
          · have := ih.flow r
            simpa [bump, hr, takenIn] using this
        · intro r
          by_cases hr : r = s.link.run
          · subst hr
            have := ih.count s.link.run
            simp only [if_true, bump, hex, takenIn, List.length_append] at this ⊢
            omega
          · have := ih.count r
            simpa [bump, hr, takenIn] using this
    | stopCard hc =>
      exact ⟨ih.reach, by simp, by simp, by simp, by simp, ih.later, ih.logs, ih.flow, ih.count, ih.room⟩
    | consume x rest l hq hp he =>
      obtain ⟨h1, h2, b, h3⟩ := receive_eq he
      have ht : ∀ r, takenIn (s.take x rest l) r = takenIn s r ++ (if s.link.run = r then [x] else []) := by
        intro r
        by_cases hr : s.link.run = r <;> simp [takenIn, EmuLink.St.take, List.filter_append, hr]
      refine ⟨.step _ _ ih.reach (.receive _ _ _ hp he), ?_, ?_, ih.up, ?_, ?_, ?_, ?_, ?_, ?_⟩
      · intro hc
        obtain ⟨-, q⟩ := ih.down hc
        rw [hq] at q; cases q
      · intro hc
        have := ih.fresh hc
        simpa [EmuLink.St.take, h1] using this
      · intro e he'
        have := ih.prod e he'
        simpa [EmuLink.St.take, h1] using this
      · intro r hr
        have hr : s.link.run < r := by simpa [EmuLink.St.take, h1] using hr
        obtain ⟨a1, a2, a3⟩ := ih.later r hr
        refine ⟨a1, a2, ?_⟩
        intro y hy
        rw [EmuLink.St.take, List.mem_append] at hy
        rcases hy with hy | hy
        · exact a3 y hy
        · simp at hy; rw [hy]; simp; omega
      · intro r
        rw [ht]
        show runLog l.log r = _
        rw [h3, Session.runLog_append, ih.logs]
        by_cases hr : s.link.run = r <;> simp [hr]
      · intro r
        rw [ht]
        have := ih.flow r
        show (_ ++ if r = l.run then rest else []).Sublist (Emu.expected c.emu c.t0 (s.iters r))
        rw [h1]
        by_cases hr : r = s.link.run
        · subst hr; simpa [hq] using this
        · simpa [hr, Ne.symm hr] using this
      · intro r
        rw [ht]
        have := ih.count r
        show (_ ++ if r = l.run then rest else []).length + s.lost r = (Emu.expected c.emu c.t0 (s.iters r)).length
        rw [h1]
        by_cases hr : r = s.link.run
        · subst hr; simp [hq] at this ⊢; omega
        · simpa [hr, Ne.symm hr] using this
      · have := ih.room
        rw [hq] at this
        simp only [EmuLink.St.take]
        simp at this; omega
    | stopLink hc hp =>
      exact ⟨.step _ _ ih.reach (.other _ _ (.stopCall _ hp) rfl), by simp, by simp,
        fun h => (by have := ih.up h; rw [hc] at this; cases this), ih.prod, ih.later, ih.logs, ih.flow, ih.count, ih.room⟩
    | other l st hlog hph =>
      have hr := step_run st hph
      refine ⟨.step _ _ ih.reach (.other _ _ st hlog), ?_, by simpa [hr] using ih.fresh, ih.up, by simpa [hr] using ih.prod,
        by simpa [hr] using ih.later, ?_, by simpa [hr, takenIn] using ih.flow, by simpa [hr, takenIn] using ih.count, ih.room⟩
      · intro hc
        obtain ⟨h1, h2⟩ := ih.down hc
        rcases hph with h | h
        · exact ⟨h.trans h1, h2⟩
        · rw [h1] at h; cases h.1
      · intro r
        show runLog l.log r = _
        rw [hlog]; exact ih.logs r
    | finish l hq hp hc he =>
      obtain ⟨h1, h2, h3⟩ := finish_eq he
      refine ⟨.step _ _ ih.reach (.other _ _ (.finish _ _ hp he) h1), fun _ => ⟨h3, hq⟩, by simp, ?_, by simpa [h2] using ih.prod,
        by simpa [h2] using ih.later, ?_, by simpa [h2, takenIn] using ih.flow, by simpa [h2, takenIn] using ih.count, ih.room⟩
      · intro h; have := ih.up h; rw [hc] at this; cases this
      · intro r
        show runLog l.log r = _
        rw [h1]; exact ih.logs r


/-! ### What the emulator emitted and the link stored -/

theorem expected_prefix (c : Emu.Cfg) (t0 m K : Nat) (h : m ≤ K) :
    ∃ rest, Emu.expected c t0 K = Emu.expected c t0 m ++ rest := by
  obtain ⟨d, rfl⟩ : ∃ d, K = m + d := ⟨K - m, by omega⟩
  rw [Emu.expected, List.range_add, List.filter_append, List.map_append]
  exact ⟨_, rfl⟩

/-- The timestamps of the first `K` iterations go forward. -/
theorem expected_forward {c : Cfg} (hm : Matched c) (htick : 0 < c.link.tick) (K : Nat)
    (hw : c.t0 + K * stride c < 18446744073709551616) :
    Forward c.link.tick c.link.nf ((Emu.expected c.emu c.t0 K).map (·.2)) := by
  have e : (Emu.expected c.emu c.t0 K).map (·.2)
      = ((List.range K).filter (Emu.creates c.emu)).map (fun k => c.t0 + k * stride c) := by
    rw [Emu.expected, List.map_map]
    apply List.map_congr_left
    intro k hk
    have h1 := List.mem_range.1 (List.mem_filter.1 hk).1
    have := Nat.mul_le_mul_right (stride c) (Nat.le_of_lt h1)
    exact EmuLink.u64_id (by show c.t0 + k * stride c < _; omega)
  rw [e, Forward, List.pairwise_map]
  refine (List.pairwise_lt_range.sublist List.filter_sublist).imp ?_
  intro a b hab
  have := Nat.mul_le_mul_right (stride c) (Nat.succ_le_of_lt hab)
  rw [Nat.succ_mul] at this
  have e2 : stride c = c.link.tick * 12 := by rw [stride, hm.tick]
  rw [hm.nf]
  omega

theorem stored_sublist (log : List Session.Arrival) (r : Nat) : (storedLog log r).Sublist (runLog log r) := by
  unfold storedLog runLog
  refine List.Sublist.map _ ?_
  induction log with
  | nil => exact List.Sublist.refl _
  | cons a l ih =>
    by_cases h1 : a.run = r
    · by_cases h2 : a.stored = true
      · simpa [h1, h2] using ih
      · have e1 : List.filter (fun a : Session.Arrival => decide (a.run = r)) (a :: l)
            = a :: List.filter (fun a => decide (a.run = r)) l := by simp [h1]
        have e2 : List.filter (fun a : Session.Arrival => decide (a.run = r ∧ a.stored = true)) (a :: l)
            = List.filter (fun a => decide (a.run = r ∧ a.stored = true)) l := by simp [h2]
        rw [e1, e2]
        exact ih.cons a
    · simpa [h1] using ih

theorem stored_all {log : List Session.Arrival} {r : Nat} (h : AllStored log r) : storedLog log r = runLog log r := by
  unfold storedLog runLog
  congr 1
  apply List.filter_congr
  intro a ha
  by_cases h1 : a.run = r
  · simp [h1, h a ha h1]
  · simp [h1]

theorem taken_sublist {c : Cfg} {n : Nat} {s : St} (inv : Inv c n s) (r : Nat) :
    (takenIn s r).Sublist (Emu.expected c.emu c.t0 (s.iters r)) :=
  (List.sublist_append_left _ _).trans (inv.flow r)

theorem stored_forward {c : Cfg} {n : Nat} {s : St} (hm : Matched c) (htick : 0 < c.link.tick) (inv : Inv c n s) (r : Nat)
    (hw : c.t0 + s.iters r * stride c < 18446744073709551616) :
    Forward c.link.tick c.link.nf (storedLog s.link.log r) := by
  refine (expected_forward hm htick _ hw).sublist ((stored_sublist _ _).trans ?_)
  rw [inv.logs]
  exact (taken_sublist inv r).map _

/-! ### Property C106 -/

/-- **C106 (delivery)** The payloads the link takes in a run are a part, in order, of what the emulator emits: those
not lost at the full queue nor still in it. -/
theorem C106_delivery (c : Cfg) (n : Nat) (hm : Matched c) (s : St) (h : Reach c n s) (r : Nat) :
    (takenIn s r ++ (if r = s.link.run then s.queue else [])).Sublist (Emu.expected c.emu c.t0 (s.iters r)) ∧
    (takenIn s r ++ (if r = s.link.run then s.queue else [])).length + s.lost r
      = (Emu.expected c.emu c.t0 (s.iters r)).length ∧
    runLog s.link.log r = (takenIn s r).map (·.2) := by
  have inv := inv_reach hm h
  exact ⟨inv.flow r, inv.count r, inv.logs r⟩

/-- **C106 (origin)** Dropouts, losses at the queue and refused payloads included: every frame of every fragment lies in
the requested window and belongs to a payload the emulator created in some iteration `k` of the run, with the bytes of
the file element whose number is the count of payloads created before (modulo the file), and that the link took; the
frames are in time order. -/
theorem C106_fragment_is_file_data (c : Cfg) (n : Nat) (hm : Matched c) (hc : Kind c.link n) (s : St)
    (h : Reach c n s) (e : Session.Sent) (he : e ∈ s.link.sent)
    (hw : c.t0 + s.iters e.run * stride c < 18446744073709551616) :
    (∀ f ∈ e.frag.frames, ∃ k, k < s.iters e.run ∧ Emu.creates c.emu k = true ∧ f.1 = c.t0 + k * stride c ∧ f.2 < 12 ∧
      e.req.dr.wBegin ≤ f.1 + f.2 * c.emu.tick ∧ f.1 + f.2 * c.emu.tick < e.req.dr.wEnd ∧
      (Emu.element c.emu (Emu.created c.emu k % Emu.numElem c.emu), f.1) ∈ takenIn s e.run) ∧
    e.frag.frames.Pairwise (fun f g => f.1 + f.2 * c.emu.tick < g.1 + g.2 * c.emu.tick) := by
  have inv := inv_reach hm h
  obtain ⟨h1, h2, -, h4⟩ := PdsLink.C93_own_data c.link n hc s.link inv.reach e he
  refine ⟨?_, ?_⟩
  · intro f hf
    obtain ⟨⟨a, ha, ha1, ha2, ha3⟩, g1, g2, g3⟩ := h1 f hf
    rw [hm.nf] at g1
    rw [← hm.tick] at g2 g3
    have hin : f.1 ∈ runLog s.link.log e.run := by
      refine List.mem_map.2 ⟨a, List.mem_filter.2 ⟨ha, by simpa using ha1⟩, ha3⟩
    rw [inv.logs] at hin
    obtain ⟨x, hx, hxe⟩ := List.mem_map.1 hin
    have hx' := (taken_sublist inv e.run).subset hx
    obtain ⟨k, hk, hke⟩ := List.mem_map.1 hx'
    obtain ⟨k1, k2⟩ := List.mem_filter.1 hk
    have k1 := List.mem_range.1 k1
    have hts : u64 (c.t0 + k * (c.emu.tick * 12)) = c.t0 + k * stride c := by
      have := Nat.mul_le_mul_right (stride c) (Nat.le_of_lt k1)
      exact EmuLink.u64_id (by show c.t0 + k * stride c < _; omega)
    have hf1 : f.1 = c.t0 + k * stride c := by rw [← hxe, ← hke]; exact hts
    refine ⟨k, k1, k2, hf1, g1, g2, g3, ?_⟩
    have : (Emu.element c.emu (Emu.created c.emu k % Emu.numElem c.emu), f.1) = x := by
      rw [← hke, hf1, ← hts]
    rw [this]; exact hx
  · cases hd : e.frag.header.dataNotFound with
    | true => rw [h4 hd]; exact List.Pairwise.nil
    | false =>
      rw [hm.tick]
      exact (PdsLink.C93_fragment_exact c.link n hc s.link inv.reach e he (stored_forward hm hc.tick inv e.run hw) hd).2

/-- **C106 (exactness)** Whatever was dropped, lost or refused: a fragment without the error bit carries exactly the
frames of its window among the payloads stored in the run. -/
theorem C106_exact_for_stored (c : Cfg) (n : Nat) (hm : Matched c) (hc : Kind c.link n) (s : St) (h : Reach c n s)
    (e : Session.Sent) (he : e ∈ s.link.sent) (hok : e.frag.header.dataNotFound = false)
    (hw : c.t0 + s.iters e.run * stride c < 18446744073709551616) (f : Nat × Nat) :
    f ∈ e.frag.frames ↔
      InWindow c.emu.tick 12 (storedLog s.link.log e.run) e.req.dr.wBegin e.req.dr.wEnd f := by
  have inv := inv_reach hm h
  rw [hm.tick, ← hm.nf]
  exact (PdsLink.C93_fragment_exact c.link n hc s.link inv.reach e he (stored_forward hm hc.tick inv e.run hw) hok).1 f

/-- **C106 (completeness)** If moreover no payload of the run was lost at the queue and none refused by the buffer, the
fragment carries all frames in its window of all payloads the emulator creates in the run, also of those it creates
after the fragment was sent. Otherwise not: `C106_lost_payload_counterexample`. -/
theorem C106_complete_partial (c : Cfg) (n : Nat) (hm : Matched c) (hc : Kind c.link n) (s : St) (h : Reach c n s)
    (e : Session.Sent) (he : e ∈ s.link.sent) (hok : e.frag.header.dataNotFound = false)
    (hlost : s.lost e.run = 0) (hst : AllStored s.link.log e.run)
    (hw : c.t0 + s.iters e.run * stride c < 18446744073709551616)
    (hw2 : e.req.dr.wEnd + stride c < 18446744073709551616) (k j : Nat) (hk : Emu.creates c.emu k = true)
    (hj : j < 12) (h1 : e.req.dr.wBegin ≤ c.t0 + k * stride c + j * c.emu.tick)
    (h2 : c.t0 + k * stride c + j * c.emu.tick < e.req.dr.wEnd) :
    (c.t0 + k * stride c, j) ∈ e.frag.frames := by
  have inv := inv_reach hm h
  obtain ⟨l, pinv⟩ := PdsLink.inv_reach hc inv.reach
  have right := pinv.right e he
  have hall : takenIn s e.run ++ (if e.run = s.link.run then s.queue else [])
      = Emu.expected c.emu c.t0 (s.iters e.run) := by
    refine (inv.flow e.run).eq_of_length ?_
    have := inv.count e.run
    omega
  let K := max (s.iters e.run) (k + 1)
  have hKw : c.t0 + K * stride c < 18446744073709551616 := by
    rcases Nat.le_total (s.iters e.run) (k + 1) with hle | hle
    · simp only [K, Nat.max_eq_right hle, Nat.succ_mul]; omega
    · simp only [K, Nat.max_eq_left hle]; exact hw
  obtain ⟨rest, hrest⟩ := expected_prefix c.emu c.t0 (s.iters e.run) K (Nat.le_max_left _ _)
  have hsplit : (Emu.expected c.emu c.t0 K).map (·.2) = storedLog s.link.log e.run ++
      (((if e.run = s.link.run then s.queue else []) ++ rest).map (·.2)) := by
    rw [stored_all hst, inv.logs, hrest, ← hall]
    simp
  have ex := (right.exact hok _ (by rw [← hsplit]; exact expected_forward hm hc.tick K hKw)).1 (c.t0 + k * stride c, j)
  rw [← hsplit] at ex
  refine ex.2 ⟨?_, ?_, ?_, ?_⟩
  · rw [Emu.expected, List.map_map]
    refine List.mem_map.2 ⟨k, List.mem_filter.2 ⟨List.mem_range.2 ?_, hk⟩, ?_⟩
    · exact Nat.lt_of_lt_of_le (Nat.lt_succ_self k) (Nat.le_max_right _ _)
    · have : k + 1 ≤ K := Nat.le_max_right _ _
      have := Nat.mul_le_mul_right (stride c) this
      rw [Nat.succ_mul] at this
      exact EmuLink.u64_id (by show c.t0 + k * stride c < _; omega)
  · rw [hm.nf]; exact hj
  · rw [← hm.tick]; exact h1
  · rw [← hm.tick]; exact h2

/-! ### A concrete emulated link: a file of two payloads (of one byte each, to keep it small), every third one dropped -/

/-- Queue of two payloads. -/
def pds : Cfg := ⟨⟨[7, 8], 1, 16, [true, true, false]⟩, 1000, PdsLink.daphne, 2⟩

theorem pds_matched : Matched pds := ⟨rfl, rfl, by decide, by decide, by decide, by decide⟩

theorem prod {c : Cfg} {s s' : St} {e e' : Emu.St} (h : s.prod = some e) (he : Emu.iter c.emu e = .ok e')
    (hs : s' = push c s e' (fresh e e')) : Step c s s' := hs ▸ .produce s e e' h he

theorem cons {c : Cfg} {s : St} {x : List Nat × Nat} {rest : List (List Nat × Nat)} {q : Ring.Ring Nat} {b : Bool}
    (hq : s.queue = x :: rest) (hp : s.link.phase ≠ .idle) (h : s.link.p.q.write x.2 = .ok (q, b)) :
    Step c s (s.take x rest { s.link with
      p := ⟨{ s.link.p.ck with prev := x.2, last := x.2 }, q⟩, log := s.link.log ++ [⟨s.link.run, x.2, b⟩] }) :=
  .consume s x rest _ hq hp (by simp [PdsLink.receive, h])

/-- Five iterations, the third of which creates nothing; the window [1350, 1590) across the hole is requested and
answered with the end of the second payload and the beginning of that of the fourth
iteration. -/
theorem demo : ∃ s, Reach pds 6 s ∧ s.link.run = 1 ∧ s.lost 1 = 0 ∧ s.iters 1 = 5 ∧
    takenIn s 1 = [([7], 1000), ([8], 1192), ([7], 1576), ([8], 1768)] ∧ (∀ a ∈ s.link.log, a.stored = true) ∧
    ∃ e ∈ s.link.sent, e.run = 1 ∧ e.req.dr = ⟨1, 1300, 1350, 1590, 5, 0⟩ ∧
      e.frag.header.dataNotFound = false ∧ e.frag.frames = [(1192, 10), (1192, 11), (1576, 0)] := by
  have r0 : Reach pds 6 _ := .init
  have r1 := Reach.step _ _ r0 (.startLink _ rfl)
  have r2 := Reach.step _ _ r1 (.startCard _ rfl)
  have r3 := Reach.step _ _ r2 (prod rfl rfl rfl)
  have r4 := Reach.step _ _ r3 (prod rfl rfl rfl)
  have r5 := Reach.step _ _ r4 (cons rfl (by decide) rfl)
  have r6 := Reach.step _ _ r5 (cons rfl (by decide) rfl)
  have r7 := Reach.step _ _ r6 (prod rfl rfl rfl)
  have r8 := Reach.step _ _ r7 (prod rfl rfl rfl)
  have r9 := Reach.step _ _ r8 (cons rfl (by decide) rfl)
  have r9a := Reach.step _ _ r9 (prod rfl rfl rfl)
  have r9b := Reach.step _ _ r9a (cons rfl (by decide) rfl)
  have r10 := Reach.step _ _ r9b (.other _ _ (.issue _ ⟨1, 1300, 1350, 1590, 5, 0⟩ (Or.inl rfl)) rfl (Or.inl rfl))
  have r11 := Reach.step _ _ r10 (.other _ _ (.reply _ ⟨⟨1, 1300, 1350, 1590, 5, 0⟩, 1⟩ _ _ List.mem_cons_self
    (Or.inl rfl) rfl rfl) rfl (Or.inl rfl))
  exact ⟨_, r11, rfl, rfl, rfl, rfl, by decide, _, List.mem_cons_self, rfl, rfl, rfl, rfl⟩

/-- The hypotheses of C106 are met there. -/
example : ∃ s, Reach pds 6 s ∧ Matched pds ∧ Kind pds.link 6 ∧ s.lost 1 = 0 ∧ AllStored s.link.log 1 ∧
    pds.t0 + s.iters 1 * stride pds < 18446744073709551616 ∧
    ∃ e ∈ s.link.sent, e.run = 1 ∧ e.frag.header.dataNotFound = false ∧ e.frag.frames.length = 3 ∧
      e.req.dr.wEnd + stride pds < 18446744073709551616 := by
  obtain ⟨s, h, -, hl, hi, -, ha, e, he, h1, h2, h3, h4⟩ := demo
  refine ⟨s, h, pds_matched, ⟨by decide, by decide, rfl, by decide, by decide⟩, hl, fun a ha' _ => ha a ha', ?_, e, he, h1, h3, ?_, ?_⟩
  · rw [hi]; decide
  · rw [h4]; rfl
  · rw [h2]; decide

/-- **C106 is false of the code** when the raw data queue was full: the second payload is lost with a warning of the
emulator, and the request for exactly its time [1192, 1384) is answered without error bit and without a frame. -/
theorem C106_lost_payload_counterexample :
    ∃ s, Reach { pds with cap := 1 } 4 s ∧ s.lost 1 = 1 ∧ s.warned = 1 ∧
      takenIn s 1 = [([7], 1000), ([7], 1576)] ∧ (∀ a ∈ s.link.log, a.stored = true) ∧
      ∃ e ∈ s.link.sent, e.run = 1 ∧ e.req.dr = ⟨1, 1192, 1192, 1384, 5, 0⟩ ∧
        e.frag.header.dataNotFound = false ∧ e.frag.frames = [] := by
  have r0 : Reach { pds with cap := 1 } 4 _ := .init
  have r1 := Reach.step _ _ r0 (.startLink _ rfl)
  have r2 := Reach.step _ _ r1 (.startCard _ rfl)
  have r3 := Reach.step _ _ r2 (prod rfl rfl rfl)
  have r4 := Reach.step _ _ r3 (prod rfl rfl rfl)
  have r5 := Reach.step _ _ r4 (cons rfl (by decide) rfl)
  have r6 := Reach.step _ _ r5 (prod rfl rfl rfl)
  have r7 := Reach.step _ _ r6 (prod rfl rfl rfl)
  have r8 := Reach.step _ _ r7 (cons rfl (by decide) rfl)
  have r9 := Reach.step _ _ r8 (.other _ _ (.issue _ ⟨1, 1192, 1192, 1384, 5, 0⟩ (Or.inl rfl)) rfl (Or.inl rfl))
  have r10 := Reach.step _ _ r9 (.other _ _ (.reply _ ⟨⟨1, 1192, 1192, 1384, 5, 0⟩, 1⟩ _ _ List.mem_cons_self
    (Or.inl rfl) rfl rfl) rfl (Or.inl rfl))
  exact ⟨_, r10, rfl, rfl, rfl, by decide, _, List.mem_cons_self, rfl, rfl, rfl, rfl⟩

end Verif.PdsEmu
