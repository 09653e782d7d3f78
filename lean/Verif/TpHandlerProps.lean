import Verif.TpHandlerModel
/- Properties C28, C29, C30 and C59: TP sets. -/
namespace Verif.TpHandler
open Verif.Search (u64)
variable {α : Type}

theorem u64_of_lt {n : Nat} (h : n < 18446744073709551616) : u64 n = n := Nat.mod_eq_of_lt h

/-- Start times in order. -/
def Ordered (ts : α → Nat) (l : List α) : Prop := l.Pairwise (fun a b => ts a ≤ ts b)

theorem drain_spec (ts : α → Nat) (pick : List α → Option (α × List α)) (hp : PickSpec ts pick)
    (e : Nat) (fuel : Nat) (buf : List α) (hf : buf.length ≤ fuel) :
    buf.Perm ((drain ts pick e fuel buf).1 ++ (drain ts pick e fuel buf).2) ∧
    (∀ a ∈ (drain ts pick e fuel buf).1, ts a < e) ∧
    (∀ b ∈ (drain ts pick e fuel buf).2, e ≤ ts b) ∧
    Ordered ts (drain ts pick e fuel buf).1 := by
  induction fuel generalizing buf with
  | zero =>
    have : buf = [] := List.length_eq_zero_iff.1 (Nat.le_zero.1 hf)
    subst this; simp [drain, Ordered]
  | succ fuel ih =>
    unfold drain
    cases hpk : pick buf with
    | none =>
      have := (hp buf).1.1 hpk
      subst this; simp [Ordered]
    | some x =>
      obtain ⟨a, r⟩ := x
      obtain ⟨hperm, hmin⟩ := (hp buf).2 a r hpk
      simp only
      split
      · rename_i hlt
        have hlen : r.length ≤ fuel := by have := hperm.length_eq; simp at this; omega
        obtain ⟨h1, h2, h3, h4⟩ := ih r hlen
        refine ⟨hperm.trans (by simpa using h1.cons a), ?_, h3, ?_⟩
        · intro b hb
          rcases List.mem_cons.1 hb with rfl | hb
          · exact hlt
          · exact h2 b hb
        · refine List.pairwise_cons.2 ⟨?_, h4⟩
          intro b hb
          apply hmin
          apply hperm.symm.subset
          exact List.mem_cons_of_mem _ (h1.symm.subset (List.mem_append.2 (Or.inl hb)))
      · rename_i hlt
        refine ⟨by simp, by simp, ?_, by simp [Ordered]⟩
        intro b hb
        have := hmin b hb; omega

/-- A well-formed TP set for window size `w`: an aligned window of that size containing all its TPs,
which are listed in time order; at least one TP. -/
def SetOk (ts : α → Nat) (w : Nat) (p : TPSet α) : Prop :=
  p.startTime % w = 0 ∧ p.endTime = p.startTime + w ∧ p.objects ≠ [] ∧ Ordered ts p.objects ∧
    ∀ a ∈ p.objects, p.startTime ≤ ts a ∧ ts a < p.endTime

structure Inv (ts : α → Nat) (c : Cfg) (s : St α) (acc : List α) (last : Nat) : Prop where
  perm : acc.Perm (s.buf ++ s.sets.flatMap (·.1.objects))
  tps : s.tps.map (·.1) = s.sets.flatMap (·.1.objects)
  ok : ∀ p ∈ s.sets, SetOk ts c.window p.1
  disj : s.sets.Pairwise (fun p r => p.1.endTime ≤ r.1.startTime)
  past : ∀ p ∈ s.sets, p.1.endTime + c.timeout < last
  buf : ∀ p ∈ s.sets, ∀ b ∈ s.buf, p.1.endTime ≤ ts b
  seq : s.seq = u64 s.sets.length
  seqs : ∀ (i : Nat) (p : TPSet α × Bool), s.sets[i]? = some p → p.1.seqno = u64 i
  ctps : s.sentTps = (s.tps.filter (·.2)).length
  csets : s.sentSets = (s.sets.filter (·.2)).length
  room : ∀ b ∈ s.buf, ts b + c.window + c.timeout < 18446744073709551616

theorem inv_run {ts : α → Nat} {pick : List α → Option (α × List α)} (hp : PickSpec ts pick)
    {c : Cfg} {pace : Nat → Nat → Prop} {s : St α} {acc : List α} {last ls : Nat}
    (h : Run ts pick c pace s acc last ls) : Inv ts c s acc last := by
  induction h with
  | reset now => constructor <;> simp [fresh, u64]
  | add s acc last ls now tp _ hm hb ih =>
    have hu : u64 (ts tp + c.timeout) = ts tp + c.timeout := u64_of_lt (by omega)
    unfold addTp
    rw [hu]
    split
    · rename_i hacc
      simp only [if_true]
      refine { ih with perm := ?_, past := ?_, buf := ?_, room := ?_ }
      · simpa using ih.perm.cons tp
      · intro p hpm; have := ih.past p hpm; omega
      · intro p hpm b hb
        rcases List.mem_cons.1 hb with rfl | hb
        · have := ih.past p hpm; omega
        · exact ih.buf p hpm b hb
      · intro b hb'
        rcases List.mem_cons.1 hb' with rfl | hb'
        · exact hb
        · exact ih.room b hb'
    · simp only [if_neg (show ¬ (false = true) by simp)]
      exact { ih with past := fun p hpm => by have := ih.past p hpm; omega }
  | send s s' acc last ls now okTp okSet _ hm hpc he ih =>
    unfold trySend at he
    cases hpk : pick s.buf with
    | none =>
      rw [hpk] at he; simp at he; subst he
      exact { ih with past := fun p hpm => by have := ih.past p hpm; omega }
    | some x =>
      obtain ⟨a, r⟩ := x
      obtain ⟨hperm, hmin⟩ := (hp s.buf).2 a r hpk
      rw [hpk] at he
      simp only at he
      have hwa := ih.room a (hperm.symm.subset (by simp))
      rw [u64_of_lt (show ts a + c.window < 18446744073709551616 by omega), u64_of_lt hwa] at he
      split at he
      · rename_i hlt
        split at he
        · exact absurd he (by simp)
        · rename_i hw0
          have hw0 : 0 < c.window := Nat.pos_of_ne_zero hw0
          have hdm : ts a / c.window * c.window ≤ ts a := Nat.div_mul_le_self _ _
          have hdl : ts a < ts a / c.window * c.window + c.window := by
            have := Nat.lt_div_mul_add (a := ts a) hw0; omega
          rw [u64_of_lt (show ts a / c.window * c.window < 18446744073709551616 by omega),
            u64_of_lt (show ts a / c.window * c.window + c.window < 18446744073709551616 by omega)] at he
          injection he with he
          obtain ⟨d1, d2, d3, d4⟩ := drain_spec ts pick hp
            (ts a / c.window * c.window + c.window) s.buf.length s.buf (Nat.le_refl _)
          generalize drain ts pick (ts a / c.window * c.window + c.window) s.buf.length s.buf = d at *
          generalize hst : ts a / c.window * c.window = start at *
          have hamem : a ∈ s.buf := hperm.symm.subset (by simp)
          have ha1 : a ∈ d.1 := by
            rcases List.mem_append.1 (d1.subset hamem) with h' | h'
            · exact h'
            · have := d3 a h'; omega
          have hmemb : ∀ b ∈ d.1, b ∈ s.buf := fun b hb => d1.symm.subset (List.mem_append.2 (Or.inl hb))
          have hmemb2 : ∀ b ∈ d.2, b ∈ s.buf := fun b hb => d1.symm.subset (List.mem_append.2 (Or.inr hb))
          have hzip : (d.1.zipIdx.map (fun p => (p.1, okTp p.2))).map (·.1) = d.1 := by
            rw [List.map_map]
            have : ((fun x : α × Bool => x.1) ∘ fun p : α × Nat => (p.1, okTp p.2)) = Prod.fst := rfl
            rw [this, List.zipIdx_map_fst]
          have halign : ∀ p ∈ s.sets, p.1.endTime ≤ start := by
            intro p hpm
            obtain ⟨e1, e2, -⟩ := ih.ok p hpm
            have hb := ih.buf p hpm a hamem
            have hmul : p.1.endTime % c.window = 0 := by rw [e2]; simp [e1]
            have : p.1.endTime / c.window ≤ ts a / c.window := Nat.div_le_div_right hb
            have := Nat.mul_le_mul_right c.window this
            rw [Nat.div_mul_cancel (Nat.dvd_of_mod_eq_zero hmul)] at this
            omega
          subst he
          constructor
          · show acc.Perm (d.2 ++ (s.sets ++ [_]).flatMap _)
            rw [List.flatMap_append]
            simp only [List.flatMap_cons, List.flatMap_nil, List.append_nil]
            refine ih.perm.trans ?_
            refine (d1.append_right _).trans ?_
            rw [List.append_assoc]
            refine (List.perm_append_comm).trans ?_
            rw [List.append_assoc]
          · show (s.tps ++ _).map _ = (s.sets ++ [_]).flatMap _
            rw [List.map_append, ih.tps, hzip, List.flatMap_append]
            simp
          · intro p hpm
            have hpm : p ∈ s.sets ++ [_] := hpm
            rcases List.mem_append.1 hpm with h' | h'
            · exact ih.ok p h'
            · simp only [List.mem_singleton] at h'; subst h'
              refine ⟨?_, rfl, ?_, d4, ?_⟩
              · show start % c.window = 0
                rw [← hst]; exact Nat.mul_mod_left _ _
              · exact fun e => by have e : d.1 = [] := e; rw [e] at ha1; simp at ha1
              · intro b hb
                have := hmin b (hmemb b hb)
                have := d2 b hb
                exact ⟨by show start ≤ _; omega, this⟩
          · show (s.sets ++ [_]).Pairwise _
            rw [List.pairwise_append]
            refine ⟨ih.disj, by simp, ?_⟩
            intro p hpm r hr
            simp only [List.mem_singleton] at hr; subst hr
            exact halign p hpm
          · intro p hpm
            have hpm : p ∈ s.sets ++ [_] := hpm
            rcases List.mem_append.1 hpm with h' | h'
            · have := ih.past p h'; omega
            · simp only [List.mem_singleton] at h'; subst h'
              show start + c.window + c.timeout < now
              omega
          · intro p hpm b hb
            have hpm : p ∈ s.sets ++ [_] := hpm
            have hb : b ∈ d.2 := hb
            rcases List.mem_append.1 hpm with h' | h'
            · exact ih.buf p h' b (hmemb2 b hb)
            · simp only [List.mem_singleton] at h'; subst h'
              exact d3 b hb
          · show u64 (s.seq + 1) = u64 (s.sets ++ [_]).length
            rw [ih.seq]; simp [u64]
          · intro i p hi
            have hi : (s.sets ++ [_])[i]? = some p := hi
            by_cases hlt : i < s.sets.length
            · rw [List.getElem?_append_left hlt] at hi; exact ih.seqs i p hi
            · rw [List.getElem?_append_right (by omega)] at hi
              by_cases he : i = s.sets.length
              · subst he; simp at hi; rw [← hi]; exact ih.seq
              · rw [List.getElem?_eq_none (by simp; omega)] at hi; simp at hi
          · show s.sentTps + _ = ((s.tps ++ _).filter _).length
            rw [List.filter_append, List.length_append, ih.ctps]
          · show s.sentSets + _ = ((s.sets ++ [_]).filter _).length
            rw [List.filter_append, List.length_append, ih.csets]
            cases okSet <;> simp
          · exact fun b hb => ih.room b (hmemb2 b hb)
      · injection he with he; subst he
        exact { ih with past := fun p hpm => by have := ih.past p hpm; omega }

/-- **C28** For every call history with non-decreasing current times (no 64-bit wrap-around): the sets
have aligned windows of the configured size, in strictly increasing order and disjoint; each holds at
least one TP, all its TPs lie in its window and are listed in time order; and the sequence
numbers count from 0 (modulo 2^64). -/
theorem C28_tpsets_partition_time (ts : α → Nat) (pick : List α → Option (α × List α))
    (hp : PickSpec ts pick) (c : Cfg)
    (s : St α) (acc : List α)
    (last ls : Nat) (h : Run ts pick c (fun _ _ => True) s acc last ls) :
    (∀ p ∈ s.sets, SetOk ts c.window p.1) ∧
    (s.sets.Pairwise (fun p r => p.1.endTime ≤ r.1.startTime ∧ p.1.startTime < r.1.startTime)) ∧
    (∀ (i : Nat) (p : TPSet α × Bool), s.sets[i]? = some p → p.1.seqno = i % 18446744073709551616) := by
  have inv := inv_run hp h
  refine ⟨inv.ok, ?_, inv.seqs⟩
  refine (inv.disj.imp_of_mem ?_)
  intro p r hpm hrm hle
  refine ⟨hle, ?_⟩
  obtain ⟨-, e2, hne, -, hin⟩ := inv.ok p hpm
  obtain ⟨x, hx⟩ := List.exists_mem_of_ne_nil _ hne
  have := hin x hx
  omega

/-- **C29** The accepted TPs are, with multiplicity, the pending TPs and the TPs of the sets handed to
the set queue; and the TPs handed individually to the TP queue are exactly the TPs of the sets, in
the same order. The two counters count the pushes that succeeded. -/
theorem C29_accepted_sent_or_pending (ts : α → Nat) (pick : List α → Option (α × List α))
    (hp : PickSpec ts pick) (c : Cfg)
    (s : St α) (acc : List α)
    (last ls : Nat) (h : Run ts pick c (fun _ _ => True) s acc last ls) :
    acc.Perm (s.buf ++ s.sets.flatMap (·.1.objects)) ∧
    s.tps.map (·.1) = s.sets.flatMap (·.1.objects) ∧
    s.sentTps = (s.tps.filter (·.2)).length ∧ s.sentSets = (s.sets.filter (·.2)).length := by
  have inv := inv_run hp h
  exact ⟨inv.perm, inv.tps, inv.ctps, inv.csets⟩

/-- **C30** A TP is accepted iff its start time plus the timeout is later than the current time; an
accepted TP lies at or after the end of every window already sent. -/
theorem C30_no_tp_for_a_sent_window (ts : α → Nat) (pick : List α → Option (α × List α))
    (hp : PickSpec ts pick) (c : Cfg)
    (s : St α) (acc : List α)
    (last ls : Nat) (h : Run ts pick c (fun _ _ => True) s acc last ls) (tp : α) (now : Nat)
    (hm : last ≤ now) (hb : ts tp + c.window + c.timeout < 18446744073709551616) :
    ((addTp ts c s tp now).2 = true ↔ now < ts tp + c.timeout) ∧
    ((addTp ts c s tp now).2 = true → ∀ p ∈ s.sets, p.1.endTime ≤ ts tp) := by
  have inv := inv_run hp h
  have hu : u64 (ts tp + c.timeout) = ts tp + c.timeout := u64_of_lt (by omega)
  have hiff : (addTp ts c s tp now).2 = true ↔ now < ts tp + c.timeout := by
    unfold addTp; rw [hu]; split <;> simp <;> omega
  refine ⟨hiff, fun ha p hpm => ?_⟩
  have := inv.past p hpm
  have := hiff.1 ha
  omega

theorem pending_run {ts : α → Nat} {pick : List α → Option (α × List α)} (hp : PickSpec ts pick)
    {c : Cfg} (hw0 : 0 < c.window) {s : St α} {acc : List α} {last ls : Nat}
    (h : Run ts pick c (fun a b => b ≤ a + c.window) s acc last ls) :
    ls ≤ last ∧ ∀ b ∈ s.buf, ls ≤ (ts b / c.window + 2) * c.window + c.timeout := by
  induction h with
  | reset now => simp [fresh]
  | add s acc last ls now tp _ hm hb ih =>
    have hu : u64 (ts tp + c.timeout) = ts tp + c.timeout := u64_of_lt (by omega)
    refine ⟨by omega, ?_⟩
    unfold addTp
    rw [hu]
    split
    · rename_i hacc
      intro b hb
      rcases List.mem_cons.1 hb with rfl | hb
      · have := Nat.lt_div_mul_add (a := ts b) hw0
        rw [Nat.add_mul]; omega
      · exact ih.2 b hb
    · exact ih.2
  | send s s' acc last ls now okTp okSet hr hm hpc he ih =>
    refine ⟨Nat.le_refl _, ?_⟩
    unfold trySend at he
    cases hpk : pick s.buf with
    | none =>
      rw [hpk] at he; simp at he; subst he
      rw [(hp s.buf).1.1 hpk]; simp
    | some x =>
      obtain ⟨a, r⟩ := x
      obtain ⟨hperm, hmin⟩ := (hp s.buf).2 a r hpk
      rw [hpk] at he
      simp only at he
      have hwa := (inv_run hp hr).room a (hperm.symm.subset (by simp))
      rw [u64_of_lt (show ts a + c.window < 18446744073709551616 by omega), u64_of_lt hwa] at he
      split at he
      · split at he
        · exact absurd he (by simp)
        · have hdm : ts a / c.window * c.window ≤ ts a := Nat.div_mul_le_self _ _
          rw [u64_of_lt (show ts a / c.window * c.window < 18446744073709551616 by omega),
            u64_of_lt (show ts a / c.window * c.window + c.window < 18446744073709551616 by omega)] at he
          injection he with he
          obtain ⟨d1, d2, d3, d4⟩ := drain_spec ts pick hp
            (ts a / c.window * c.window + c.window) s.buf.length s.buf (Nat.le_refl _)
          subst he
          intro b hb
          have hge := d3 b hb
          have hamem : a ∈ s.buf := hperm.symm.subset (by simp)
          have hold := ih.2 a hamem
          have hdiv : ts a / c.window + 1 ≤ ts b / c.window := by
            rw [Nat.le_div_iff_mul_le hw0, Nat.add_mul]; omega
          have := Nat.mul_le_mul_right c.window (Nat.add_le_add_right hdiv 2)
          rw [Nat.add_mul] at hold this ⊢
          rw [Nat.add_mul, Nat.add_mul] at this
          omega
      · rename_i hlt
        injection he with he; subst he
        intro b hb
        have := hmin b hb
        have := Nat.lt_div_mul_add (a := ts b) hw0
        rw [Nat.add_mul]; omega

/-- **C59** If consecutive sending attempts are at most one window apart, then after every attempt each
accepted TP that is still pending started less than two windows plus the timeout ago (counted
from the start of its window). -/
theorem C59_bounded_latency (ts : α → Nat) (pick : List α → Option (α × List α))
    (hp : PickSpec ts pick) (c : Cfg)
    (hw0 : 0 < c.window) (s : St α) (acc : List α) (now : Nat)
    (h : Run ts pick c (fun a b => b ≤ a + c.window) s acc now now) (b : α) (hb : b ∈ s.buf) :
    now ≤ (ts b / c.window + 2) * c.window + c.timeout ∧ now ≤ ts b + 2 * c.window + c.timeout := by
  have := (pending_run hp hw0 h).2 b hb
  refine ⟨this, ?_⟩
  have := Nat.div_mul_le_self (ts b) c.window
  rw [Nat.add_mul] at *
  omega

/-- A choice function: a least element. -/
def pickMin (ts : α → Nat) : List α → Option (α × List α)
  | [] => none
  | a :: l =>
    match pickMin ts l with
    | none => some (a, [])
    | some (b, r) => if ts a ≤ ts b then some (a, b :: r) else some (b, a :: r)

theorem pickMin_spec (ts : α → Nat) : PickSpec ts (pickMin ts) := by
  intro l
  induction l with
  | nil => simp [pickMin]
  | cons x l ih =>
    unfold pickMin
    cases hpk : pickMin ts l with
    | none =>
      have := ih.1.1 hpk
      subst this
      refine ⟨by simp, ?_⟩
      intro a r e
      injection e with e; injection e with e1 e2; subst e1; subst e2
      simp
    | some y =>
      obtain ⟨b, r⟩ := y
      obtain ⟨h1, h2⟩ := ih.2 b r hpk
      simp only
      split
      · rename_i hle
        refine ⟨by simp, ?_⟩
        intro a r e
        injection e with e; injection e with e1 e2; subst e1; subst e2
        refine ⟨h1.cons x, ?_⟩
        intro c hc
        rcases List.mem_cons.1 hc with rfl | hc
        · exact Nat.le_refl _
        · have := h2 c hc; omega
      · rename_i hle
        refine ⟨by simp, ?_⟩
        intro a r e
        injection e with e; injection e with e1 e2; subst e1; subst e2
        refine ⟨(h1.cons x).trans (List.Perm.swap _ _ _), ?_⟩
        intro c hc
        rcases List.mem_cons.1 hc with rfl | hc
        · omega
        · exact h2 c hc

/-! ### Concrete cases -/

/-- TPs of the demonstration: numbers below 1000; the start time is the number. -/
abbrev Tp := Fin 1000

/-- The choice function of the demonstration. -/
abbrev pick1 : List Tp → Option (Tp × List Tp) := pickMin Fin.val

/-- Window 10, timeout 20. -/
def demoC : Cfg := ⟨20, 10⟩

/-- Five TPs accepted, one rejected (too late), two windows sent, two TPs pending: shows that the
hypotheses of C28-C30 and C59 hold for a non-trivial history. -/
theorem demo_run : ∃ s acc, Run (α := Tp) Fin.val pick1 demoC (fun a b => b ≤ a + 10) s acc 50 50 ∧
    s.sets.map (fun p => (p.1.startTime, p.1.endTime, p.1.seqno, p.1.objects)) =
      [(0, 10, 0, [5, 9]), (10, 20, 1, [12])] ∧ acc.length = 5 ∧ s.buf = [25, 30] := by
  have h0 := Run.reset (α := Tp) (ts := Fin.val) (pick := pick1) (c := demoC)
    (pace := fun a b => b ≤ a + 10) 10
  have h1 := Run.add _ _ _ _ 10 9 h0 (by decide) (by decide)
  have h2 := Run.add _ _ _ _ 10 5 h1 (by decide) (by decide)
  have h3 := Run.add _ _ _ _ 20 12 h2 (by decide) (by decide)
  have h4 := Run.add _ _ _ _ 20 30 h3 (by decide) (by decide)
  have h5 := Run.send _ _ _ _ _ 20 (fun _ => true) true h4 (by decide) (by decide) rfl
  have h6 := Run.send _ _ _ _ _ 30 (fun _ => true) true h5 (by decide) (by decide) rfl
  have h7 := Run.add _ _ _ _ 35 25 h6 (by decide) (by decide)
  have h8 := Run.send _ _ _ _ _ 40 (fun _ => true) true h7 (by decide) (by decide) rfl
  have h9 := Run.add _ _ _ _ 40 3 h8 (by decide) (by decide)
  have h10 := Run.send _ _ _ _ _ 50 (fun k => k == 0) false h9 (by decide) (by decide) rfl
  exact ⟨_, _, h10, by decide, by decide, by decide⟩

/-- Without the pacing hypothesis of C59 its conclusion fails: one attempt sends one set only, so a
late attempt leaves TPs pending for arbitrarily long. -/
theorem C59_unpaced_counterexample : ∃ (s : St Tp) (acc : List Tp) (b : Tp),
    Run Fin.val pick1 demoC (fun _ _ => True) s acc 500 500 ∧ b ∈ s.buf ∧
      ¬ 500 ≤ b.val + 2 * demoC.window + demoC.timeout := by
  have h0 := Run.reset (α := Tp) (ts := Fin.val) (pick := pick1) (c := demoC)
    (pace := fun _ _ => True) 10
  have h1 := Run.add _ _ _ _ 10 5 h0 (by decide) (by decide)
  have h2 := Run.add _ _ _ _ 10 15 h1 (by decide) (by decide)
  have h3 := Run.send _ _ _ _ _ 500 (fun _ => true) true h2 (by decide) trivial rfl
  exact ⟨_, _, 15, h3, by decide, by decide⟩

end Verif.TpHandler
