import Verif.LinkTpModel
import Verif.TpChainProps
/- Property C89: trigger primitives from the bytes of the superchunks to the TP sets. -/
namespace Verif.LinkTp
open Verif.Tpg
open Verif.Expand
open Verif.TpHandler (Cfg PickSpec Run inv_run C59_bounded_latency)
open Verif.TpChain hiding St superchunk

/-! ### Specification -/

/-- The sample from which the estimate of the pedestal of the `k`-th collection channel starts (C34: it belongs
to the channel itself for the first sixteen only). -/
def ped (m : Mem) (ps : List Nat) (k : Nat) : Int :=
  match ps with
  | [] => 0
  | p :: _ => adcValue (fun i => m.byte (p + 464 * (k / 16) + i)) (collTable.getD (k % 16) 0)

/-- Samples at which a signal of the `k`-th collection channel has just ended. -/
def signals (taps : Nat → Int) (m : Mem) (ps : List Nat) (k : Nat) : List Nat :=
  signalEnds taps (ped m ps k) (adcStream m ps (collTable.getD k 0)) 0 (12 * ps.length)

/-- The signal is reported in time. -/
def timely (taps : Nat → Int) (m : Mem) (ps : List Nat) (timeout k e : Nat) : Bool :=
  early taps (ped m ps k) (adcStream m ps (collTable.getD k 0)) timeout e

/-- The first sample of the signal. -/
def first (taps : Nat → Int) (m : Mem) (ps : List Nat) (k e : Nat) : Nat :=
  e - runL taps (ped m ps k) (adcStream m ps (collTable.getD k 0)) e

/-- The trigger primitive of a signal, with the electronics channel; the first sample of the run is at `ts`. -/
def prim (taps : Nat → Int) (m : Mem) (ps : List Nat) (ts k e : Nat) : TrigPrim :=
  ⟨collTable.getD k 0, runTp taps (ped m ps k) (adcStream m ps (collTable.getD k 0)) ts e⟩

/-! ### The run as unpacking, hit finding and TP handler -/

/-- The collection registers of a superchunk as the hit finder sees them. -/
def inp (m : Mem) (p : Nat) : Nat → Int :=
  asInput fun i => (frameRegs m (p + i % 12 * 464)).1 (i / 12)

theorem expand_inp (m : Mem) (p : Nat) (hp : p + 5576 ≤ m.size) (junk : Nat → V) :
    ∃ regs, expandMessage m p junk junk = .ok regs ∧ asInput regs.1 = inp m p := by
  refine ⟨_, (expandMessage_eq m p junk junk).trans (if_pos hp), ?_⟩
  funext a
  unfold inp asInput
  by_cases h : a < 1152
  · rw [if_pos h, if_pos h]
    dsimp only
    rw [if_pos (by omega)]
  · rw [if_neg h, if_neg h]

theorem inputs_inp (m : Mem) (junk : Nat → V) (ps : List Nat) (hs : ∀ p ∈ ps, p + 5576 ≤ m.size) :
    inputs m junk ps = .ok (ps.map (inp m)) := by
  induction ps with
  | nil => rfl
  | cons p ps ih =>
    obtain ⟨regs, e, h⟩ := expand_inp m p (hs p (by simp)) junk
    unfold inputs
    rw [e, Outcome.bind_ok, ih (fun q hq => hs q (by simp [hq])), Outcome.bind_ok, h]
    rfl

/-- Hits with electronics channels. -/
def relabel (hits : List (Nat × Hit)) : List (Nat × Hit) := hits.map fun x => (onlineChannel x.1, x.2)

theorem step_eq (taps : Nat → Int) (pick : List TrigPrim → Option (TrigPrim × List TrigPrim)) (c : Cfg)
    (m : Mem) (stamp : Nat → Nat) (s : St) (v : VInfo) (p : Nat) (junk : Nat → V) (q : Push)
    (hv : s.info.getD (VInfo.start (inp m p)) = v)
    (hd : s.dest.length = bufEntries) (hp : p + 5576 ≤ m.size) :
    ∃ buf, findHits taps v (inp m p) s.dest
        = .ok ((avxWindow taps v (inp m p) 12).1, buf, windowHits taps v (inp m p) 12)
      ∧ buf.length = bufEntries
      ∧ superchunk taps pick c m stamp s p junk q
        = TpChain.superchunk pick c s.tps (stamp p) (relabel (windowHits taps v (inp m p) 12)) q
            >>= fun t => pure ⟨some (avxWindow taps v (inp m p) 12).1, buf, t⟩ := by
  obtain ⟨buf, e, hb⟩ := findHits_eq taps v (inp m p) s.dest (by rw [hd]; unfold bufEntries; omega)
  obtain ⟨regs, er, hr⟩ := expand_inp m p hp junk
  refine ⟨buf, e, by rw [hb, hd], ?_⟩
  unfold superchunk
  rw [er, Outcome.bind_ok]
  dsimp only
  rw [hr, hv, e, Outcome.bind_ok]
  rfl

theorem run_some (taps : Nat → Int) (pick : List TrigPrim → Option (TrigPrim × List TrigPrim)) (c : Cfg)
    (m : Mem) (stamp : Nat → Nat) (junk : Nat → Nat → V) (push : Nat → Push) (ps : List Nat) :
    ∀ (k : Nat) (s : St) (v : VInfo), s.info = some v → s.dest.length = bufEntries →
      (∀ p ∈ ps, p + 5576 ≤ m.size) →
      ∃ out, findAll taps v s.dest (ps.map (inp m)) = .ok out ∧
        ∀ t, chain pick c push k s.tps ((ps.map stamp).zip (out.map relabel)) = .ok t →
          ∃ s', run taps pick c m stamp junk push k s ps = .ok s' ∧ s'.tps = t := by
  induction ps with
  | nil =>
    intro k s v _ _ _
    refine ⟨[], rfl, fun t h => ⟨s, rfl, ?_⟩⟩
    have h : Outcome.ok s.tps = Outcome.ok t := h
    injection h
  | cons p ps ih =>
    intro k s v hv hd hs
    obtain ⟨buf, e, hb, es⟩ := step_eq taps pick c m stamp s v p (junk k) (push k) (by rw [hv]; rfl) hd
      (hs p (by simp))
    obtain ⟨out, e2, h2⟩ := ih (k + 1) ⟨some (avxWindow taps v (inp m p) 12).1, buf, s.tps⟩
      (avxWindow taps v (inp m p) 12).1 rfl hb (fun q hq => hs q (by simp [hq]))
    refine ⟨windowHits taps v (inp m p) 12 :: out, ?_, ?_⟩
    · rw [List.map_cons]
      unfold findAll
      rw [e, Outcome.bind_ok]
      dsimp only
      rw [e2]; rfl
    · intro t ht
      rw [List.map_cons, List.map_cons, List.zip_cons_cons] at ht
      unfold chain at ht
      dsimp only at ht
      unfold run
      rw [es]
      cases hx : TpChain.superchunk pick c s.tps (stamp p) (relabel (windowHits taps v (inp m p) 12)) (push k) with
      | ok u =>
        rw [hx, Outcome.bind_ok] at ht
        rw [Outcome.bind_ok, Outcome.pure_eq, Outcome.bind_ok]
        obtain ⟨out', e2', h2'⟩ := ih (k + 1) ⟨some (avxWindow taps v (inp m p) 12).1, buf, u⟩
          (avxWindow taps v (inp m p) 12).1 rfl hb (fun q hq => hs q (by simp [hq]))
        have : Outcome.ok out' = Outcome.ok out := e2'.symm.trans e2
        injection this with this
        subst this
        exact h2' t ht
      | ub x => rw [hx, Outcome.bind_ub] at ht; cases ht
      | throws x => rw [hx, Outcome.bind_throws] at ht; cases ht

theorem run_start (taps : Nat → Int) (pick : List TrigPrim → Option (TrigPrim × List TrigPrim)) (c : Cfg)
    (m : Mem) (stamp : Nat → Nat) (junk : Nat → Nat → V) (push : Nat → Push) (old : List Nat)
    (ho : old.length = bufEntries) (ps : List Nat) (hs : ∀ p ∈ ps, p + 5576 ≤ m.size)
    {out : List (List (Nat × Hit))} (eo : processor taps old (ps.map (inp m)) = .ok out) {t : TpChain.St}
    (ht : chain pick c push 0 fresh ((ps.map stamp).zip (out.map relabel)) = .ok t) :
    ∃ s, run taps pick c m stamp junk push 0 (atStart old) ps = .ok s ∧ s.tps = t := by
  cases ps with
  | nil =>
    have h : Outcome.ok fresh = Outcome.ok t := ht
    injection h with h
    exact ⟨atStart old, rfl, h⟩
  | cons p ps =>
    obtain ⟨out', e', h'⟩ := run_some taps pick c m stamp junk push (p :: ps) 0
      ⟨some (VInfo.start (inp m p)), old, fresh⟩ (VInfo.start (inp m p)) rfl ho hs
    have : Outcome.ok out' = Outcome.ok out := e'.symm.trans eo
    injection this with this
    subst this
    obtain ⟨s, e, h⟩ := h' t ht
    refine ⟨s, ?_, h⟩
    rw [← e]
    obtain ⟨regs, er, hr⟩ := expand_inp m p (hs p (by simp)) (junk 0)
    have : superchunk taps pick c m stamp (atStart old) p (junk 0) (push 0)
        = superchunk taps pick c m stamp ⟨some (VInfo.start (inp m p)), old, fresh⟩ p (junk 0) (push 0) := by
      unfold superchunk
      rw [er, Outcome.bind_ok, Outcome.bind_ok]
      dsimp only
      rw [hr]
      rfl
    unfold run
    rw [this]

/-! ### Timestamps and channels -/

theorem zip_stamped (stamp : Nat → Nat) (ts : Nat) (ps : List Nat) : ∀ (k : Nat) (out : List (List (Nat × Hit))),
    out.length = ps.length → (∀ (i p : Nat), ps[i]? = some p → stamp p = ts + 300 * (k + i)) →
    (ps.map stamp).zip out = stamped ts k out := by
  induction ps with
  | nil => intro k out hl _; cases out with
    | nil => rfl
    | cons x out => simp at hl
  | cons p ps ih =>
    intro k out hl h
    cases out with
    | nil => simp at hl
    | cons x out =>
      rw [List.map_cons, List.zip_cons_cons]
      unfold stamped
      rw [h 0 p rfl, Nat.add_zero, ih (k + 1) out (by simpa using hl) (fun i q hq => by
        rw [h (i + 1) q (by simpa using hq), show k + (i + 1) = k + 1 + i by omega])]

theorem table (k : Nat) (hk : k < 96) : onlineChannel k = collTable.getD k 0 := by
  have : ∀ k : Fin 96, onlineChannel k = collTable.getD k 0 := by decide +kernel
  exact this ⟨k, hk⟩

/-- A list splits into its parts by channel. -/
theorem split_table (l : List (Nat × TrigPrim)) (h : ∀ x ∈ l, ∃ k, k < 96 ∧ x.2.channel = onlineChannel k) :
    l.length = ((List.range 96).map fun k =>
      (l.filter fun x => x.2.channel == onlineChannel k).length).sum := by
  induction l with
  | nil => decide
  | cons x l ih =>
    have ih := ih fun y hy => h y (by simp [hy])
    obtain ⟨k, hk, e⟩ := h x (by simp)
    rw [List.length_cons, ih]
    have key : ∀ n, k < n → n ≤ 96 → ((List.range n).map fun j =>
          ((x :: l).filter fun x => x.2.channel == onlineChannel j).length).sum
        = ((List.range n).map fun j => (l.filter fun x => x.2.channel == onlineChannel j).length).sum + 1 := by
      intro n
      have low : ∀ j, j < 96 → j ≠ k → ((x :: l).filter fun x => x.2.channel == onlineChannel j)
          = l.filter fun x => x.2.channel == onlineChannel j := by
        intro j hj hne
        rw [List.filter_cons, if_neg]
        rw [e]
        simpa using fun h => hne (online_inj _ _ hk hj h).symm
      induction n with
      | zero => intro h; omega
      | succ n ihn =>
        intro h1 h2
        rw [List.range_succ, List.map_append, List.map_append, List.sum_append, List.sum_append]
        by_cases hkn : k = n
        · subst hkn
          have e1 : (List.range k).map (fun j =>
                ((x :: l).filter fun x => x.2.channel == onlineChannel j).length)
              = (List.range k).map fun j => (l.filter fun x => x.2.channel == onlineChannel j).length := by
            apply List.map_congr_left
            intro j hj
            rw [List.mem_range] at hj
            rw [low j (by omega) (by omega)]
          rw [e1]
          simp [e]
          omega
        · rw [ihn (by omega) (by omega)]
          simp only [List.map_cons, List.map_nil, List.sum_cons, List.sum_nil]
          rw [low n (by omega) (fun h => hkn h.symm)]
          omega
    rw [key 96 hk (Nat.le_refl _)]

theorem relabel_channels (ts : Nat) (out : List (List (Nat × Hit)))
    (h : ∀ hits ∈ out, ∀ x ∈ hits, x.1 < 96) : ∀ k, ∀ x ∈ offered (stamped ts k (out.map relabel)),
      ∃ j, j < 96 ∧ x.2.channel = onlineChannel j := by
  induction out with
  | nil => intro k x hx; simp [stamped, offered] at hx
  | cons hits out ih =>
    intro k x hx
    have ho : offered (stamped ts k ((hits :: out).map relabel))
        = ((relabel hits).map fun h => (ts + 300 * k, (⟨h.1, tpOf (ts + 300 * k) h.2⟩ : TrigPrim)))
          ++ offered (stamped ts (k + 1) (out.map relabel)) := by
      simp [offered, stamped]
    rw [ho, List.mem_append, List.mem_map] at hx
    rcases hx with ⟨y, hy, rfl⟩ | hx
    · unfold relabel at hy
      rw [List.mem_map] at hy
      obtain ⟨z, hz, rfl⟩ := hy
      exact ⟨z.1, h hits (by simp) z hz, rfl⟩
    · exact ih (fun hs hh => h hs (List.mem_cons_of_mem _ hh)) (k + 1) x hx

/-! ### The whole run -/

theorem run_stamped (taps : Nat → Int) (h7 : taps 7 = 0) (old : List Nat) (ho : old.length = bufEntries)
    (m : Mem) (hb : Bytes m.byte) (ps : List Nat) (hs : ∀ p ∈ ps, p + 5576 ≤ m.size) (junk : Nat → Nat → V)
    (pick : List TrigPrim → Option (TrigPrim × List TrigPrim)) (hp : PickSpec start pick) (c : Cfg)
    (hw0 : 0 < c.window) (push : Nat → Push) (pace : Nat → Nat → Prop) (stamp : Nat → Nat) (ts : Nat)
    (hst : ∀ (i p : Nat), ps[i]? = some p → stamp p = ts + 300 * i)
    (hts : ts + 300 * ps.length + c.window + c.timeout < 9223372036854775808)
    (hpace : ∀ out : List (List (Nat × Hit)), Paced pace ts (stamped ts 0 out)) :
    ∃ s acc, run taps pick c m stamp junk push 0 (atStart old) ps = .ok s
      ∧ Run start pick c pace s.tps.h acc (ts + 300 * (ps.length - 1)) (ts + 300 * (ps.length - 1))
      ∧ (∀ k, k < 96 → ((held s.tps).filter fun t => t.channel == collTable.getD k 0).Perm
          (((signals taps m ps k).filter (timely taps m ps c.timeout k)).map (prim taps m ps ts k)))
      ∧ (∀ t ∈ held s.tps, t.channel ∈ collTable)
      ∧ s.tps.dropped = ((List.range 96).map fun k =>
          ((signals taps m ps k).filter fun e => !timely taps m ps c.timeout k e).length).sum
      ∧ s.tps.found = ((List.range 96).map fun k => (signals taps m ps k).length).sum := by
  obtain ⟨ins, ei, hr, hl, hc⟩ := inputs_eq m hb (junk 0) ps hs
  have : Outcome.ok (ps.map (inp m)) = Outcome.ok ins := (inputs_inp m (junk 0) ps hs).symm.trans ei
  injection this with hins
  subst hins
  obtain ⟨out, e, l, h⟩ := run_hits h7 ho hr
  have hlen : out.length = ps.length := by rw [l, List.length_map]
  have hrange := processor_channels taps old ho _ e
  have hch := relabel_channels ts out hrange 0
  have hped : ∀ k, k < 96 → ps ≠ [] → startPed (ps.map (inp m)) k = ped m ps k := by
    intro k hk hne
    rw [(hc k hk).2 hne, table (k % 16) (by omega)]
    cases ps with
    | nil => exact absurd rfl hne
    | cons p ps => rfl
  have key : ∀ k, k < 96 →
      (offered (stamped ts 0 (out.map relabel))).filter (fun x => x.2.channel == onlineChannel k)
      = (signals taps m ps k).map fun e => (ts + 300 * (e / 12), prim taps m ps ts k e) := by
    intro k hk
    unfold signals prim
    rw [← table k hk]
    by_cases hne : ps = []
    · subst hne
      have : out = [] := List.eq_nil_of_length_eq_zero hlen
      subst this
      rfl
    have := stamped_tps taps (ped m ps k) (adcStream m ps (onlineChannel k)) ts ps.length (onlineChannel k)
      (by omega) (out.map relabel) 0 (by rw [List.length_map]; omega) (fun j hits hj => by
        rw [List.getElem?_map, Option.map_eq_some_iff] at hj
        obtain ⟨hits', hj, rfl⟩ := hj
        have hm : hits' ∈ out := List.mem_of_getElem? hj
        have e1 : hitsOf (onlineChannel k) (relabel hits') = hitsOf k hits' := hitsOf_online hk (hrange _ hm)
        have e2 := h k hk j hits' hj
        rw [(hc k hk).1, hped k hk hne] at e2
        rw [e1, e2, Nat.zero_add])
    rw [this, List.length_map, hlen, Nat.mul_zero]
  have hb' : ∀ x ∈ offered (stamped ts 0 (out.map relabel)),
      start x.2 + c.window + c.timeout < 18446744073709551616 := by
    intro x hx
    obtain ⟨k, hk, ek⟩ := hch x hx
    have hx' : x ∈ (offered (stamped ts 0 (out.map relabel))).filter
        (fun y => y.2.channel == onlineChannel k) := by
      rw [List.mem_filter]; exact ⟨hx, by simp [ek]⟩
    rw [key k hk, List.mem_map] at hx'
    obtain ⟨e, he, hxe⟩ := hx'
    have := signalEnds_mem he
    rw [← hxe]
    show ts + 25 * (e - _) + c.window + c.timeout < _
    omega
  obtain ⟨t, acc, c1, c2, c3, c4, c5⟩ := chain_run pick c hw0 push pace (stamped ts 0 (out.map relabel)) 0
    fresh [] ts (.reset ts) (hpace _) hb'
  rw [List.append_nil] at c3
  have hz : (ps.map stamp).zip (out.map relabel) = stamped ts 0 (out.map relabel) :=
    zip_stamped stamp ts ps 0 _ (by rw [List.length_map, hlen]) (fun i p hi => by rw [hst i p hi, Nat.zero_add])
  obtain ⟨s, es, rfl⟩ := run_start taps pick c m stamp junk push old ho ps hs e (by rw [hz]; exact c1)
  have hperm := (held_perm hp c2).symm.trans c3
  have hin : ∀ k e, inTime c (ts + 300 * (e / 12), prim taps m ps ts k e) = timely taps m ps c.timeout k e :=
    fun k e => inTime_early ..
  refine ⟨s, acc, es, ?_, ?_, ?_, ?_, ?_⟩
  · have := stamped_last ts (out.map relabel) 0 ts
    rw [this] at c2
    have e2 : (if out.map relabel = [] then ts else ts + 300 * (0 + (out.map relabel).length - 1))
        = ts + 300 * (ps.length - 1) := by
      rw [List.length_map]
      split
      · rename_i h0
        rw [← hlen, List.map_eq_nil_iff.1 h0]; rfl
      · rw [hlen, Nat.zero_add]
    rw [e2] at c2
    exact c2
  · intro k hk
    rw [← table k hk]
    refine (hperm.filter _).trans ?_
    rw [List.filter_map, List.filter_filter]
    have e3 : (offered (stamped ts 0 (out.map relabel))).filter
          (fun x => ((fun t : TrigPrim => t.channel == onlineChannel k) ∘ fun x : Nat × TrigPrim => x.2) x
            && inTime c x)
        = ((offered (stamped ts 0 (out.map relabel))).filter
            (fun x => x.2.channel == onlineChannel k)).filter (inTime c) := by
      rw [List.filter_filter]
      apply List.filter_congr
      intro x _
      rw [Bool.and_comm]; rfl
    rw [e3, key k hk, List.filter_map, List.map_map]
    refine List.Perm.of_eq ?_
    have e4 : (inTime c ∘ fun e => (ts + 300 * (e / 12), prim taps m ps ts k e))
        = timely taps m ps c.timeout k := by
      funext e; exact hin k e
    rw [e4]; rfl
  · intro t ht
    have := hperm.subset ht
    rw [List.mem_map] at this
    obtain ⟨x, hx, rfl⟩ := this
    obtain ⟨k, hk, ek⟩ := hch x (List.mem_filter.1 hx).1
    rw [ek, table k hk]
    have hk' : k < collTable.length := hk
    rw [List.getD_eq_getElem?_getD, List.getElem?_eq_getElem hk', Option.getD_some]
    exact List.getElem_mem _
  · rw [c4]
    show 0 + _ = _
    rw [Nat.zero_add, split_table _ (fun x hx => hch x (List.mem_filter.1 hx).1)]
    congr 1
    apply List.map_congr_left
    intro k hk
    rw [List.mem_range] at hk
    have e3 : ((offered (stamped ts 0 (out.map relabel))).filter fun x => !inTime c x).filter
          (fun x => x.2.channel == onlineChannel k)
        = ((offered (stamped ts 0 (out.map relabel))).filter
            (fun x => x.2.channel == onlineChannel k)).filter fun x => !inTime c x := by
      rw [List.filter_filter, List.filter_filter]
      apply List.filter_congr
      intro x _
      rw [Bool.and_comm]
    rw [e3, key k hk, List.filter_map, List.length_map]
    congr 2
    funext e
    show (!inTime c _) = _
    rw [hin]
  · rw [c5]
    show 0 + _ = _
    rw [Nat.zero_add, split_table _ hch]
    congr 1
    apply List.map_congr_left
    intro k hk
    rw [List.mem_range] at hk
    rw [key k hk, List.length_map]

/-! ### C89 -/

/-- **C89** where it holds: superchunks in memory with timestamps 300 ticks apart. The run completes; the TPs in
the sets together with the pending ones are, for every electronics channel of the collection plane, exactly those
of the signals in the samples of this channel that are reported in time, each once, with start, peak time,
duration and charge taken from the samples; no TP has another channel. The others are counted as dropped, all are
counted as found. -/
theorem C89_bytes_to_tps_partial (taps : Nat → Int) (h7 : taps 7 = 0) (old : List Nat)
    (ho : old.length = bufEntries) (m : Mem) (hb : Bytes m.byte) (ps : List Nat)
    (hs : ∀ p ∈ ps, p + 5576 ≤ m.size) (junk : Nat → Nat → V)
    (pick : List TrigPrim → Option (TrigPrim × List TrigPrim)) (hp : PickSpec start pick) (c : Cfg)
    (hw0 : 0 < c.window) (push : Nat → Push) (stamp : Nat → Nat) (ts : Nat)
    (hst : ∀ (i p : Nat), ps[i]? = some p → stamp p = ts + 300 * i)
    (hts : ts + 300 * ps.length + c.window + c.timeout < 9223372036854775808) :
    ∃ s, run taps pick c m stamp junk push 0 (atStart old) ps = .ok s
      ∧ (∀ k, k < 96 → ((held s.tps).filter fun t => t.channel == collTable.getD k 0).Perm
          (((signals taps m ps k).filter (timely taps m ps c.timeout k)).map (prim taps m ps ts k)))
      ∧ (∀ t ∈ held s.tps, t.channel ∈ collTable)
      ∧ s.tps.dropped = ((List.range 96).map fun k =>
          ((signals taps m ps k).filter fun e => !timely taps m ps c.timeout k e).length).sum
      ∧ s.tps.found = ((List.range 96).map fun k => (signals taps m ps k).length).sum := by
  obtain ⟨s, acc, h1, -, h2⟩ := run_stamped taps h7 old ho m hb ps hs junk pick hp c hw0 push
    (fun _ _ => True) stamp ts hst hts (fun out => stamped_paced' ts out 0 ts (Nat.le_refl _))
  exact ⟨s, h1, h2⟩

/-- **C89**, the sets: with a window of at least one superchunk, every signal reported in time that began more
than two windows and the timeout before the last superchunk is in a set whose window is aligned and contains its
start time; the sets are disjoint in time. -/
theorem C89_old_signals_in_sets (taps : Nat → Int) (h7 : taps 7 = 0) (old : List Nat)
    (ho : old.length = bufEntries) (m : Mem) (hb : Bytes m.byte) (ps : List Nat)
    (hs : ∀ p ∈ ps, p + 5576 ≤ m.size) (junk : Nat → Nat → V)
    (pick : List TrigPrim → Option (TrigPrim × List TrigPrim)) (hp : PickSpec start pick) (c : Cfg)
    (hw : 300 ≤ c.window) (push : Nat → Push) (stamp : Nat → Nat) (ts : Nat)
    (hst : ∀ (i p : Nat), ps[i]? = some p → stamp p = ts + 300 * i)
    (hts : ts + 300 * ps.length + c.window + c.timeout < 9223372036854775808) :
    ∃ s, run taps pick c m stamp junk push 0 (atStart old) ps = .ok s
      ∧ (∀ k, k < 96 → ∀ e ∈ signals taps m ps k, timely taps m ps c.timeout k e = true →
            25 * first taps m ps k e + 2 * c.window + c.timeout < 300 * (ps.length - 1) →
            ∃ p ∈ s.tps.h.sets, prim taps m ps ts k e ∈ p.1.objects
              ∧ p.1.startTime % c.window = 0 ∧ p.1.endTime = p.1.startTime + c.window
              ∧ p.1.startTime ≤ ts + 25 * first taps m ps k e ∧ ts + 25 * first taps m ps k e < p.1.endTime)
      ∧ s.tps.h.sets.Pairwise (fun p r => p.1.endTime ≤ r.1.startTime) := by
  obtain ⟨s, acc, h1, hr, h3, -⟩ := run_stamped taps h7 old ho m hb ps hs junk pick hp c (by omega) push
    (fun a b => b ≤ a + c.window) stamp ts hst hts
    (fun out => stamped_paced ts c.window hw out 0 ts (Nat.le_refl _) (Nat.le_add_right _ _))
  refine ⟨s, h1, ?_, (inv_run hp hr).disj⟩
  intro k hk e he ht hlate
  have es : start (prim taps m ps ts k e) = ts + 25 * first taps m ps k e := rfl
  have hm : prim taps m ps ts k e ∈ held s.tps := by
    have := (h3 k hk).symm.subset (List.mem_map.2 ⟨e, List.mem_filter.2 ⟨he, ht⟩, rfl⟩)
    exact (List.mem_filter.1 this).1
  rcases List.mem_append.1 hm with hb | hs
  · have := (C59_bounded_latency start pick hp c (by omega) s.tps.h acc _ hr _ hb).2
    rw [es] at this
    omega
  · rw [List.mem_flatMap] at hs
    obtain ⟨p, hp1, hp2⟩ := hs
    obtain ⟨o1, o2, -, -, o5⟩ := (inv_run hp hr).ok p hp1
    have := o5 _ hp2
    rw [es] at this
    exact ⟨p, hp1, hp2, o1, o2, this.1, this.2⟩

/-! ### Concrete runs -/

/-- Value of channel `c` in frame `n`: the given samples on channel 16, all others flat. -/
def waveValue (xs : List Int) (n c : Nat) : Nat := if c = 16 then (xs.getD n 100).toNat else 100

/-- Superchunks in memory, one after the other. -/
def wave (xs : List Int) : Mem := ⟨464 * xs.length + 8, fun i => packFrame (waveValue xs (i / 464)) (i % 464)⟩

/-- Their addresses, and timestamps. -/
def places (q : Nat) : List Nat := (List.range q).map (5568 * ·)
def clock (p : Nat) : Nat := 1000000 + 300 * (p / 5568)

theorem clock_places (q i p : Nat) (h : (places q)[i]? = some p) : clock p = 1000000 + 300 * i := by
  unfold places at h
  rw [List.getElem?_map, Option.map_eq_some_iff] at h
  obtain ⟨j, hj, rfl⟩ := h
  obtain ⟨hj, rfl⟩ := List.getElem?_eq_some_iff.1 hj
  rw [List.getElem_range]
  unfold clock
  rw [show 5568 * i / 5568 = i by omega]

theorem wave_value (xs : List Int) (hx : ∀ x ∈ xs, x ≤ 4095) (n c : Nat) (hc : c < 256) :
    adcValue (fun i => (wave xs).byte (464 * n + i)) c = waveValue xs n c := by
  rw [adcValue_congr (g := packFrame (waveValue xs n)) c hc (fun i hi => ?_), adcValue_pack _ ?_ c hc]
  · intro c
    unfold waveValue
    split
    · by_cases hn : n < xs.length
      · have := hx _ (List.getElem_mem hn)
        rw [List.getD_eq_getElem?_getD, List.getElem?_eq_getElem hn, Option.getD_some]
        omega
      · rw [List.getD_eq_getElem?_getD, List.getElem?_eq_none (by omega)]; decide
    · omega
  · show packFrame (waveValue xs ((464 * n + i) / 464)) ((464 * n + i) % 464) = _
    rw [show (464 * n + i) / 464 = n by omega, show (464 * n + i) % 464 = i by omega]

theorem range_blocks {α : Type} (f : Nat → α) (q : Nat) :
    (List.range q).flatMap (fun j => (List.range 12).map fun t => f (12 * j + t))
      = (List.range (12 * q)).map f := by
  induction q with
  | zero => rfl
  | succ q ih =>
    rw [List.range_succ (n := q), List.flatMap_append, ih, Nat.mul_succ, List.range_add, List.map_append, List.map_map]
    simp only [List.flatMap_cons, List.flatMap_nil, List.append_nil]
    rfl

theorem wave_stream (xs : List Int) (hx : ∀ x ∈ xs, x ≤ 4095) (q c : Nat) (hc : c < 256) :
    adcStream (wave xs) (places q) c = (List.range (12 * q)).map fun n => (waveValue xs n c : Int) := by
  unfold adcStream places
  rw [List.flatMap_map, ← range_blocks]
  congr 1
  funext j
  apply List.map_congr_left
  intro t _
  rw [show 5568 * j + 464 * t = 464 * (12 * j + t) by omega, wave_value xs hx _ c hc]

theorem wave_ped (xs : List Int) (hx : ∀ x ∈ xs, x ≤ 4095) (q k : Nat) :
    ped (wave xs) (places (q + 1)) k = waveValue xs (k / 16) (collTable.getD (k % 16) 0) := by
  have e : places (q + 1) = 0 :: (List.range q).map (fun j => 5568 * (j + 1)) := by
    unfold places
    rw [List.range_succ_eq_map, List.map_cons, List.map_map]
    rfl
  rw [e]
  show (adcValue (fun i => (wave xs).byte (0 + 464 * (k / 16) + i)) _ : Int) = _
  have hr : ∀ j : Fin 16, collTable.getD j 0 < 256 := by decide
  rw [Nat.zero_add, wave_value xs hx _ _ (hr ⟨k % 16, by omega⟩)]

theorem places_fit (xs : List Int) (q : Nat) (hq : xs.length = 12 * q) :
    ∀ p ∈ places q, p + 5576 ≤ (wave xs).size := by
  intro p hp
  unfold places at hp
  rw [List.mem_map] at hp
  obtain ⟨j, hj, rfl⟩ := hp
  rw [List.mem_range] at hj
  show 5568 * j + 5576 ≤ 464 * xs.length + 8
  omega

theorem late_le : ∀ x ∈ latePulse, x ≤ 4095 := by decide

theorem late_signals0 : signals fir (wave latePulse) (places 3) 0 = [25] := by
  unfold signals
  rw [wave_ped _ late_le 2 0, wave_stream _ late_le 3 _ (by decide)]
  decide +kernel

theorem late_signals (k : Nat) (hk : k < 96) (h0 : k ≠ 0) : signals fir (wave latePulse) (places 3) k = [] := by
  unfold signals
  have hr : ∀ j : Fin 96, collTable.getD j 0 < 256 := by decide
  have hn : ∀ j : Fin 96, (j : Nat) ≠ 0 → collTable.getD j 0 ≠ 16 := by decide
  have hp : ∀ j : Fin 96, waveValue latePulse (j / 16) (collTable.getD (j % 16) 0) = 100 := by decide +kernel
  rw [wave_ped _ late_le 2 k, wave_stream _ late_le 3 _ (hr ⟨k, hk⟩), hp ⟨k, hk⟩]
  have e : (List.range (12 * 3)).map (fun n => (waveValue latePulse n (collTable.getD k 0) : Int))
      = (List.range (12 * 3)).map fun _ => (100 : Int) := by
    apply List.map_congr_left
    intro n _
    unfold waveValue
    rw [if_neg (hn ⟨k, hk⟩ h0)]
    rfl
  rw [e]
  decide +kernel

theorem late_timely (timeout : Nat) : timely fir (wave latePulse) (places 3) timeout 0 25
    = decide (125 < timeout + 25) := by
  unfold timely early
  have e : runL fir (ped (wave latePulse) (places 3) 0)
      (adcStream (wave latePulse) (places 3) (collTable.getD 0 0)) 25 = 5 := by
    rw [wave_ped _ late_le 2 0, wave_stream _ late_le 3 _ (by decide)]
    decide +kernel
  rw [e]

/-- A pulse on electronics channel 16: exactly one TP, with this channel. -/
theorem late_run (junk : Nat → Nat → V) (push : Nat → Push) :
    ∃ s, run fir pickTp ⟨100000, 10000⟩ (wave latePulse) clock junk push 0 (atStart freshBuf) (places 3) = .ok s
      ∧ held s.tps = [⟨16, ⟨1000500, 1000562, 125, 298⟩⟩] ∧ s.tps.dropped = 0 ∧ s.tps.found = 1 := by
  obtain ⟨s, e, h, hc, hd, hf⟩ := C89_bytes_to_tps_partial fir rfl freshBuf freshBuf_length (wave latePulse)
    (fun i => packFrame_byte _ _) (places 3) (places_fit _ 3 (by decide)) junk pickTp
    (TpHandler.pickMin_spec start) ⟨100000, 10000⟩ (by decide) push clock 1000000 (clock_places 3) (by decide)
  have hs : ∀ k ∈ List.range 96, signals fir (wave latePulse) (places 3) k = if k = 0 then [25] else [] := by
    intro k hk
    rw [List.mem_range] at hk
    split
    · rename_i h; subst h; exact late_signals0
    · exact late_signals k hk (by assumption)
  refine ⟨s, e, ?_, ?_, ?_⟩
  · have all : (held s.tps).filter (fun t => t.channel == 16) = held s.tps := by
      rw [List.filter_eq_self]
      intro t ht
      obtain ⟨k, hk, ek⟩ := List.mem_iff_getElem.1 (hc t ht)
      have ek' : collTable.getD k 0 = t.channel := by
        rw [List.getD_eq_getElem?_getD, List.getElem?_eq_getElem hk, Option.getD_some, ek]
      have hk : k < 96 := hk
      by_cases h0 : k = 0
      · subst h0
        rw [← ek']; rfl
      · have := h k hk
        rw [late_signals k hk h0] at this
        have := this.subset (List.mem_filter.2 ⟨ht, by rw [ek']; simp⟩)
        simp at this
    have := h 0 (by decide)
    rw [late_signals0, List.filter_cons, late_timely] at this
    rw [show collTable.getD 0 0 = 16 from rfl, all] at this
    have ep : prim fir (wave latePulse) (places 3) 1000000 0 25 = ⟨16, ⟨1000500, 1000562, 125, 298⟩⟩ := by
      unfold prim
      rw [wave_ped _ late_le 2 0, wave_stream _ late_le 3 _ (by decide)]
      decide +kernel
    rw [if_pos (by decide), List.filter_nil, List.map_cons, List.map_nil, ep] at this
    exact List.perm_singleton.1 this
  · rw [hd]
    have : (List.range 96).map (fun k => ((signals fir (wave latePulse) (places 3) k).filter fun e =>
        !timely fir (wave latePulse) (places 3) (⟨100000, 10000⟩ : Cfg).timeout k e).length)
        = (List.range 96).map fun _ => 0 := by
      apply List.map_congr_left
      intro k hk
      rw [hs k hk]
      split
      · rename_i h0; subst h0
        rw [List.filter_cons, late_timely]
        decide
      · rfl
    rw [this]
    decide
  · rw [hf]
    have : (List.range 96).map (fun k => (signals fir (wave latePulse) (places 3) k).length)
        = (List.range 96).map fun k => if k = 0 then 1 else 0 := by
      apply List.map_congr_left
      intro k hk
      rw [hs k hk]
      split <;> rfl
    rw [this]
    decide

/-- **C89 is false**: with a timeout of 100 ticks the pulse on channel 16 is found, and no TP is sent or pending;
it is counted as dropped. -/
theorem C89_dropped_counterexample (junk : Nat → Nat → V) (push : Nat → Push) :
    ∃ s, run fir pickTp ⟨100, 300⟩ (wave latePulse) clock junk push 0 (atStart freshBuf) (places 3) = .ok s
      ∧ signals fir (wave latePulse) (places 3) 0 = [25]
      ∧ (held s.tps).filter (fun t => t.channel == 16) = [] ∧ 1 ≤ s.tps.dropped := by
  obtain ⟨s, e, h, hc, hd, hf⟩ := C89_bytes_to_tps_partial fir rfl freshBuf freshBuf_length (wave latePulse)
    (fun i => packFrame_byte _ _) (places 3) (places_fit _ 3 (by decide)) junk pickTp
    (TpHandler.pickMin_spec start) ⟨100, 300⟩ (by decide) push clock 1000000 (clock_places 3) (by decide)
  refine ⟨s, e, late_signals0, ?_, ?_⟩
  · have := h 0 (by decide)
    rw [late_signals0, List.filter_cons, late_timely] at this
    rw [if_neg (by decide), List.filter_nil, List.map_nil] at this
    exact List.perm_nil.1 this
  · rw [hd, List.range_eq_range', show (96 : Nat) = 95 + 1 from rfl, List.range'_succ, List.map_cons,
      List.sum_cons, late_signals0, List.filter_cons, late_timely]
    rw [if_pos (by decide), List.filter_nil, List.length_singleton]
    omega

end Verif.LinkTp
