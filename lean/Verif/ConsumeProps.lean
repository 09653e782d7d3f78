import Verif.ConsumeModel
/- Properties C49, C50 and C61: the consumer thread and post-processing. -/
namespace Verif.Consume

/-- Payload popped but neither stored nor dropped yet. -/
def pend : CPc → Nat
  | .have_ _ => 1
  | _ => 0

/-- Payload popped but not counted yet. -/
def infl : CPc → Nat
  | .have_ _ => 1
  | .wrote => 1
  | _ => 0

/-- Basic invariant. -/
structure Inv (s : St) : Prop where
  pre : s.pre = List.range s.popped
  hv : ∀ i, s.c = .have_ i → i + 1 = s.popped
  pos : infl s.c ≤ s.popped
  sub : s.stored.Sublist (List.range (s.popped - pend s.c))
  cnt : s.stored.length + s.dropped + pend s.c = s.popped
  num : s.num + infl s.c = s.popped
  acc : s.accepted = s.seen.map (·.1) ++ s.q
  len : s.accepted.length + s.lost = s.num
  done1 : s.sp = .flushed ∨ s.sp = .postStopped ∨ s.sp = .stopped → s.c = .done
  done2 : s.tDone = true → s.q = [] ∧ s.c = .done
  done3 : s.sp = .stopped → s.tDone = true

theorem range_snoc (n : Nat) : List.range (n + 1) = List.range n ++ [n] := List.range_succ

theorem inv_reach (c : Cfg) (s : St) (h : Reach c s) : Inv s := by
  induction h with
  | init =>
    refine ⟨rfl, by simp [init], by simp [init, infl], by simp [init], by simp [init, pend],
      by simp [init, infl], rfl, by simp [init], ?_, ?_, ?_⟩ <;> simp [init]
  | step s s' _ st ih =>
    cases st with
    | pop h =>
      have hs := ih.sub; have hc := ih.cnt; have hn := ih.num
      simp only [h, pend, infl, Nat.sub_zero, Nat.add_zero] at hs hc hn
      refine { ih with pre := ?_, hv := ?_, pos := ?_, sub := ?_, cnt := ?_, num := ?_, done1 := ?_, done2 := ?_ }
      · simp only [ih.pre, range_snoc]
      · intro i hi; simp at hi; simp [hi]
      · simp [infl]
      · simpa [pend] using hs
      · simp only [pend]; omega
      · simp only [infl]; omega
      · intro h'; have := ih.done1 h'; rw [h] at this; cases this
      · intro h'; have := (ih.done2 h').2; rw [h] at this; cases this
    | write i h =>
      have hs := ih.sub; have hc := ih.cnt; have hn := ih.num; have hi := ih.hv i h
      simp only [h, pend, infl] at hs hc hn
      have e1 : s.popped = (s.popped - 1) + 1 := by omega
      have e2 : s.popped - 1 = i := by omega
      split
      · refine { ih with hv := ?_, pos := ?_, sub := ?_, cnt := ?_, num := ?_, done1 := ?_, done2 := ?_ }
        · intro j hj; cases hj
        · simp [infl]; omega
        · simp only [pend, Nat.sub_zero]
          rw [e1, range_snoc, e2]
          rw [e2] at hs
          exact hs.append (List.Sublist.refl _)
        · simp only [pend, List.length_append, List.length_singleton]; omega
        · simp only [infl]; omega
        · intro h'; have := ih.done1 h'; rw [h] at this; cases this
        · intro h'; have := (ih.done2 h').2; rw [h] at this; cases this
      · refine { ih with hv := ?_, pos := ?_, sub := ?_, cnt := ?_, num := ?_, done1 := ?_, done2 := ?_ }
        · intro j hj; cases hj
        · simp [infl]; omega
        · simp only [pend, Nat.sub_zero]
          rw [e1, range_snoc]
          exact hs.trans (List.sublist_append_left _ _)
        · simp only [pend]; omega
        · simp only [infl]; omega
        · intro h'; have := ih.done1 h'; rw [h] at this; cases this
        · intro h'; have := (ih.done2 h').2; rw [h] at this; cases this
    | back h =>
      have hs := ih.sub; have hc := ih.cnt; have hn := ih.num; have hl := ih.len
      simp only [h, pend, infl] at hs hc hn
      unfold backStep
      split
      · refine { ih with hv := ?_, pos := ?_, sub := ?_, cnt := ?_, num := ?_, acc := ?_, len := ?_, done1 := ?_, done2 := ?_ }
        · intro j hj; cases hj
        · simp [infl]
        · simpa [pend] using hs
        · simp only [pend]; omega
        · simp only [infl]; omega
        · simp [ih.acc]
        · simp only [List.length_append, List.length_singleton]; omega
        · intro h'; have := ih.done1 h'; rw [h] at this; cases this
        · intro h'; have := (ih.done2 h').2; rw [h] at this; cases this
      · refine { ih with hv := ?_, pos := ?_, sub := ?_, cnt := ?_, num := ?_, len := ?_, done1 := ?_, done2 := ?_ }
        · intro j hj; cases hj
        · simp [infl]
        · simpa [pend] using hs
        · simp only [pend]; omega
        · simp only [infl]; omega
        · simp only; omega
        · intro h'; have := ih.done1 h'; rw [h] at this; cases this
        · intro h'; have := (ih.done2 h').2; rw [h] at this; cases this
    | leave h hs =>
      have hsub := ih.sub; have hc := ih.cnt; have hn := ih.num
      simp only [h, pend, infl] at hsub hc hn
      refine { ih with hv := ?_, pos := ?_, sub := hsub, cnt := hc, num := hn, done1 := ?_, done2 := ?_ }
      · intro j hj; cases hj
      · simp [infl]
      · intro _; rfl
      · intro h'; exact ⟨(ih.done2 h').1, rfl⟩
    | clean n h hs => exact { ih with }
    | post p q h ht =>
      refine { ih with acc := ?_, done2 := ?_ }
      · simp [ih.acc, h]
      · intro h'; simp [ht] at h'
    | postLeave h hs ht =>
      refine { ih with done2 := ?_, done3 := ?_ }
      · intro _; exact ⟨h, ih.done1 (Or.inr (Or.inl hs))⟩
      · intro _; rfl
    | stop hs =>
      refine { ih with done1 := ?_, done3 := ?_ }
      · intro h; simp at h
      · intro h; simp at h
    | flush hs h =>
      refine { ih with done1 := ?_, done3 := ?_ }
      · intro _; exact h
      · intro h; simp at h
    | postStop hs =>
      refine { ih with done1 := ?_, done3 := ?_ }
      · intro _; exact ih.done1 (Or.inl hs)
      · intro h; simp at h
    | ret hs ht =>
      refine { ih with done1 := ?_, done3 := ?_ }
      · intro _; exact ih.done1 (Or.inr (Or.inl hs))
      · intro _; exact ht

/-- **C49** In every execution: the popped payloads were preprocessed exactly once each and in order;
each is either stored (once, in order, after its preprocessing) or counted as dropped, up to the one the
consumer holds; and the payload counter equals the number popped, up to the one in progress. -/
theorem C49_accounted (c : Cfg) (s : St) (h : Reach c s) :
    s.pre = List.range s.popped ∧
    s.stored.Sublist s.pre ∧ s.stored.Nodup ∧
    s.stored.length + s.dropped + pend s.c = s.popped ∧
    s.num + infl s.c = s.popped := by
  have hi := inv_reach c s h
  have hsub : s.stored.Sublist (List.range s.popped) :=
    hi.sub.trans (List.range_sublist.2 (Nat.sub_le _ _))
  refine ⟨hi.pre, by rw [hi.pre]; exact hsub, hsub.nodup List.nodup_range, hi.cnt, hi.num⟩

/-- Two payloads, buffer with room for one: the second is dropped. -/
def demoC : Cfg := ⟨1, 4, 1⟩

def demoFull : St := ⟨.idle, .running, false, [0], [some 0, some 0], 2, [0, 1], [0], 1, 2, [some 0, some 0], 0, []⟩

theorem demoFull_reach : Reach demoC demoFull := by
  have h0 := Reach.init (c := demoC)
  have h1 := Reach.step _ _ h0 (Step.pop _ rfl)
  have h2 := Reach.step _ _ h1 (Step.write _ 0 rfl)
  have h3 := Reach.step _ _ h2 (Step.back _ rfl)
  have h4 := Reach.step _ _ h3 (Step.pop _ rfl)
  have h5 := Reach.step _ _ h4 (Step.write _ 1 rfl)
  have h6 := Reach.step _ _ h5 (Step.back _ rfl)
  exact h6

/-- Non-vacuity of C49: a reachable state with a stored and a dropped payload. -/
example : Reach demoC demoFull ∧ demoFull.stored = [0] ∧ demoFull.dropped = 1 := ⟨demoFull_reach, rfl, rfl⟩

/-- **C50 is false of the code (duplicates)**: after a rejected write the newest stored payload is handed
to post-processing a second time. -/
theorem C50_processed_twice_counterexample :
    ∃ s, Reach demoC s ∧ s.seen.map (·.1) = [some 0, some 0] := by
  have h1 := Reach.step _ _ demoFull_reach (Step.post _ (some 0) [some 0] rfl rfl)
  have h2 := Reach.step _ _ h1 (Step.post _ (some 0) [] rfl rfl)
  exact ⟨_, h2, rfl⟩

/-- **C50 is false of the code (freed payloads)**: stop flushes the latency buffer before it stops
post-processing, so pointers still queued are processed after their payloads were destroyed. -/
theorem C50_dead_payload_counterexample :
    ∃ s, Reach demoC s ∧ s.sp = .stopped ∧ s.seen = [(some 0, false)] := by
  have h0 := Reach.init (c := demoC)
  have h1 := Reach.step _ _ h0 (Step.pop _ rfl)
  have h2 := Reach.step _ _ h1 (Step.write _ 0 rfl)
  have h3 := Reach.step _ _ h2 (Step.back _ rfl)
  have h4 := Reach.step _ _ h3 (Step.stop _ rfl)
  have h5 := Reach.step _ _ h4 (Step.leave _ rfl rfl)
  have h6 := Reach.step _ _ h5 (Step.flush _ rfl rfl)
  have h7 := Reach.step _ _ h6 (Step.postStop _ rfl)
  have h8 := Reach.step _ _ h7 (Step.post _ (some 0) [] rfl rfl)
  have h9 := Reach.step _ _ h8 (Step.postLeave _ rfl rfl rfl)
  have h10 := Reach.step _ _ h9 (Step.ret _ rfl rfl)
  exact ⟨_, h10, rfl, rfl⟩

/-- **C50 is false of the code (null)**: when a cleanup may remove everything (a configured pop fraction
of 1 is accepted), it can do so between the write and `back()`: a null pointer is processed. -/
theorem C50_null_payload_counterexample :
    ∃ s, Reach ⟨1, 4, 0⟩ s ∧ s.seen = [(none, false)] := by
  have h0 := Reach.init (c := ⟨1, 4, 0⟩)
  have h1 := Reach.step _ _ h0 (Step.pop _ rfl)
  have h2 := Reach.step _ _ h1 (Step.write _ 0 rfl)
  have h3 := Reach.step _ _ h2 (Step.clean _ 1 (by decide) rfl)
  have h4 := Reach.step _ _ h3 (Step.back _ rfl)
  have h5 := Reach.step _ _ h4 (Step.post _ none [] rfl rfl)
  exact ⟨_, h5, rfl⟩

/-- Invariant when no write was rejected and cleanup leaves at least one payload. -/
structure Inv2 (s : St) : Prop where
  all : s.stored = List.range (s.popped - pend s.c)
  suf : s.sp = .running ∨ s.sp = .stopping → s.buf <:+ s.stored
  ne : s.c = .wrote → s.buf ≠ []
  asub : s.accepted.Sublist ((List.range (s.popped - infl s.c)).map some)

theorem dropped_mono (c : Cfg) (s s' : St) (st : Step c s s') : s.dropped ≤ s'.dropped ∧ s.lost ≤ s'.lost := by
  cases st <;> try exact ⟨Nat.le_refl _, Nat.le_refl _⟩
  · split <;> simp
  · unfold backStep; split <;> simp

theorem getLast?_suffix {l m : List Nat} (h : l <:+ m) (hl : l ≠ []) : l.getLast? = m.getLast? := by
  obtain ⟨t, rfl⟩ := h
  rw [List.getLast?_append]
  cases hh : l.getLast? with
  | none => simp at hh; exact absurd hh hl
  | some a => rfl

theorem inv2_reach (c : Cfg) (hk : 1 ≤ c.keep) (s : St) (h : Reach c s) (hd : s.dropped = 0) : Inv2 s := by
  induction h with
  | init => refine ⟨rfl, by simp [init], by simp [init], by simp [init]⟩
  | step s s' hr st ih =>
    have hi := inv_reach c s hr
    have hm := dropped_mono c s s' st
    have ih := ih (by omega)
    cases st with
    | pop h =>
      have ha := ih.all; have hs := ih.asub
      simp only [h, pend, infl, Nat.sub_zero] at ha hs
      exact ⟨by simpa [pend] using ha, ih.suf, by simp, by simpa [infl] using hs⟩
    | write i h =>
      have hi' := hi.hv i h
      have ha := ih.all; have hs := ih.asub
      simp only [h, pend, infl] at ha hs
      have hnd : s.sp = .running ∨ s.sp = .stopping := by
        cases hsp : s.sp with
        | running => simp
        | stopping => simp
        | flushed => have := hi.done1 (by simp [hsp]); rw [h] at this; cases this
        | postStopped => have := hi.done1 (by simp [hsp]); rw [h] at this; cases this
        | stopped => have := hi.done1 (by simp [hsp]); rw [h] at this; cases this
      split at hd
      · rename_i hb
        rw [if_pos hb]
        have e2 : s.popped - 1 = i := by omega
        have e1 : s.popped = i + 1 := by omega
        refine ⟨?_, ?_, by simp, ?_⟩
        · simp only [pend, Nat.sub_zero]
          rw [ha, e2, e1, range_snoc]
        · intro hsp
          obtain ⟨t, ht⟩ := ih.suf hsp
          exact ⟨t, by simp [← ht]⟩
        · simpa [infl] using hs
      · simp at hd
    | back h =>
      have hpos := hi.pos
      have ha := ih.all; have hs := ih.asub
      simp only [h, pend, infl, Nat.sub_zero] at ha hs hpos
      have hnd : s.sp = .running ∨ s.sp = .stopping := by
        cases hsp : s.sp with
        | running => simp
        | stopping => simp
        | flushed => have := hi.done1 (by simp [hsp]); rw [h] at this; cases this
        | postStopped => have := hi.done1 (by simp [hsp]); rw [h] at this; cases this
        | stopped => have := hi.done1 (by simp [hsp]); rw [h] at this; cases this
      have hsnoc : List.range s.popped = List.range (s.popped - 1) ++ [s.popped - 1] := by
        rw [← range_snoc]; congr 1; omega
      have hlast : s.buf.getLast? = some (s.popped - 1) := by
        rw [getLast?_suffix (ih.suf hnd) (ih.ne h), ha, hsnoc]; simp
      unfold backStep
      split
      · refine ⟨by simpa [pend] using ha, ih.suf, by simp, ?_⟩
        simp only [infl, Nat.sub_zero]
        rw [hsnoc, List.map_append, hlast]
        exact hs.append (List.Sublist.refl _)
      · refine ⟨by simpa [pend] using ha, ih.suf, by simp, ?_⟩
        simp only [infl, Nat.sub_zero]
        rw [hsnoc, List.map_append]
        exact hs.trans (List.sublist_append_left _ _)
    | leave h hs =>
      have ha := ih.all; have hs' := ih.asub
      simp only [h, pend, infl] at ha hs'
      exact ⟨ha, ih.suf, by simp, hs'⟩
    | clean n h hs =>
      refine ⟨ih.all, ?_, ?_, ih.asub⟩
      · intro hsp
        exact (List.drop_suffix n s.buf).trans (ih.suf hsp)
      · intro _ h'
        have := congrArg List.length h'
        simp at this; omega
    | post p q h ht => exact ⟨ih.all, ih.suf, ih.ne, ih.asub⟩
    | postLeave h hs ht => exact ⟨ih.all, ih.suf, ih.ne, ih.asub⟩
    | stop hs => exact ⟨ih.all, fun _ => ih.suf (Or.inl hs), ih.ne, ih.asub⟩
    | flush hs h => exact ⟨ih.all, by simp, by simp [h], ih.asub⟩
    | postStop hs => exact ⟨ih.all, by simp, ih.ne, ih.asub⟩
    | ret hs ht => exact ⟨ih.all, by simp, ih.ne, ih.asub⟩

/-- **C50 (partial: order, at most once, completeness at stop)** In every execution in which no payload
was rejected by the latency buffer (and cleanup always leaves a payload behind): post-processing is
invoked on stored payloads in storage order, each at most once; the invocations plus the queue contents
are exactly what the queue accepted; once stop has returned, everything accepted has been processed, and if no
warning was issued, that is every stored payload. Missing: executions with rejected writes (duplicates)
and the claim that payloads are still alive when processed (both false). -/
theorem C50_in_order_partial (c : Cfg) (hk : 1 ≤ c.keep) (s : St) (h : Reach c s) (hd : s.dropped = 0) :
    (∃ l : List Nat, s.seen.map (·.1) = l.map some ∧ l.Sublist s.stored ∧ l.Nodup) ∧
    s.seen.map (·.1) ++ s.q = s.accepted ∧
    (s.sp = .stopped → s.seen.map (·.1) = s.accepted ∧
      (s.lost = 0 → s.seen.map (·.1) = s.stored.map some)) := by
  have hi := inv_reach c s h
  have h2 := inv2_reach c hk s h hd
  have hsub : (s.seen.map (·.1)).Sublist ((List.range (s.popped - infl s.c)).map some) := by
    have := h2.asub
    rw [hi.acc] at this
    exact (List.sublist_append_left _ _).trans this
  obtain ⟨l, hl, e⟩ := List.sublist_map_iff.1 hsub
  have hst : l.Sublist s.stored := by
    rw [h2.all]
    refine hl.trans (List.range_sublist.2 ?_)
    cases s.c <;> simp [pend, infl]
  refine ⟨⟨l, e, hst, hl.nodup List.nodup_range⟩, hi.acc.symm, ?_⟩
  intro hsp
  have ht := hi.done3 hsp
  have hq := (hi.done2 ht).1
  have hc := (hi.done2 ht).2
  have e1 : s.seen.map (·.1) = s.accepted := by rw [hi.acc, hq, List.append_nil]
  refine ⟨e1, ?_⟩
  intro hlost
  rw [e1]
  have hn := hi.num
  have hln := hi.len
  have hall := h2.all
  have hasub := h2.asub
  simp only [hc, infl, pend, Nat.sub_zero] at hn hall hasub
  rw [hall]
  exact hasub.eq_of_length (by simp; omega)

/-- Two payloads stored, one processed, one still queued. -/
example : ∃ s, Reach ⟨5, 4, 1⟩ s ∧ s.dropped = 0 ∧ s.stored = [0, 1] ∧ s.seen = [(some 0, true)] ∧
    s.q = [some 1] := by
  have h0 := Reach.init (c := ⟨5, 4, 1⟩)
  have h1 := Reach.step _ _ h0 (Step.pop _ rfl)
  have h2 := Reach.step _ _ h1 (Step.write _ 0 rfl)
  have h3 := Reach.step _ _ h2 (Step.back _ rfl)
  have h4 := Reach.step _ _ h3 (Step.pop _ rfl)
  have h5 := Reach.step _ _ h4 (Step.write _ 1 rfl)
  have h6 := Reach.step _ _ h5 (Step.back _ rfl)
  have h7 := Reach.step _ _ h6 (Step.post _ (some 0) [some 1] rfl rfl)
  exact ⟨_, h7, rfl, rfl, rfl, rfl⟩

theorem mem_suffix_range {l : List Nat} {m i : Nat} (h : l <:+ List.range m) (h1 : m ≤ i + l.length)
    (h2 : i < m) : i ∈ l := by
  obtain ⟨t, ht⟩ := h
  have hlen := congrArg List.length ht
  simp at hlen
  have hi : (t ++ l)[i]? = some i := by rw [ht]; simp [h2]
  rw [List.getElem?_append_right (by omega)] at hi
  exact List.mem_of_getElem? hi

/-- Invariant when cleanup leaves more than a queueful. -/
structure Inv3 (c : Cfg) (s : St) : Prop where
  ql : s.q.length ≤ c.qcap
  bl : s.sp = .running ∨ s.sp = .stopping → s.q.length + (infl s.c - pend s.c) ≤ s.buf.length
  alive : s.sp = .running ∨ s.sp = .stopping → ∀ x ∈ s.seen, x.2 = true

theorem inv3_reach (c : Cfg) (hk : c.qcap + 1 ≤ c.keep) (s : St) (h : Reach c s) (hd : s.dropped = 0)
    (hlo : s.lost = 0) : Inv3 c s := by
  induction h with
  | init => refine ⟨by simp [init], by simp [init, infl, pend], by simp [init]⟩
  | step s s' hr st ih =>
    have hi := inv_reach c s hr
    have hm := dropped_mono c s s' st
    have h2 := inv2_reach c (by omega) s hr (by omega)
    have ih := ih (by omega) (by omega)
    cases st with
    | pop h =>
      have hb := ih.bl
      simp only [h, pend, infl] at hb
      exact ⟨ih.ql, by simpa [pend, infl] using hb, ih.alive⟩
    | write i h =>
      have hb := ih.bl
      simp only [h, pend, infl] at hb
      split at hd
      · rename_i hbuf
        rw [if_pos hbuf]
        refine ⟨ih.ql, ?_, ih.alive⟩
        intro hsp
        have := hb hsp
        simp only [pend, infl, List.length_append, List.length_singleton]; omega
      · simp at hd
    | back h =>
      have hb := ih.bl
      simp only [h, pend, infl] at hb
      unfold backStep at hlo ⊢
      split
      · rename_i hq
        refine ⟨by simp; omega, ?_, ih.alive⟩
        intro hsp
        have := hb hsp
        simp only [pend, infl, List.length_append, List.length_singleton]; omega
      · rename_i hq
        rw [if_neg hq] at hlo
        simp at hlo
    | leave h hs =>
      have hb := ih.bl
      simp only [h, pend, infl] at hb
      exact ⟨ih.ql, by simpa [pend, infl] using hb, ih.alive⟩
    | clean n h hs =>
      refine ⟨ih.ql, ?_, ih.alive⟩
      intro _
      have := ih.ql
      have : infl s.c - pend s.c ≤ 1 := by cases s.c <;> simp [infl, pend]
      simp only [List.length_drop]; omega
    | post p q h ht =>
      have hq := ih.ql
      rw [h] at hq
      refine ⟨by simp at hq; simp; omega, ?_, ?_⟩
      · intro hsp
        have := ih.bl hsp
        rw [h] at this
        simp at this ⊢; omega
      · intro hsp x hx
        rcases List.mem_append.1 hx with hx | hx
        · exact ih.alive hsp x hx
        · simp at hx
          rw [hx]
          show live s.buf p = true
          -- the queue head is the payload number (popped - in flight - queue length)
          have hacc : s.accepted = (List.range (s.popped - infl s.c)).map some := by
            refine h2.asub.eq_of_length ?_
            have := hi.len; have := hi.num
            simp at hlo
            simp; omega
          have hlen : s.seen.length + s.q.length = s.popped - infl s.c := by
            have := congrArg List.length hacc
            rw [hi.acc] at this
            simpa using this
          have hp : p = some s.seen.length := by
            have h1 : s.accepted[s.seen.length]? = some p := by
              rw [hi.acc, h, List.getElem?_append_right (by simp)]; simp
            rw [hacc, h] at *
            simp at hlen
            rw [List.getElem?_map, List.getElem?_range (by omega)] at h1
            simpa using h1.symm
          have hbl := ih.bl hsp
          have hsuf := h2.suf hsp
          rw [h2.all] at hsuf
          rw [hp]
          simp only [live, decide_eq_true_eq]
          have hpi : pend s.c ≤ infl s.c := by cases s.c <;> simp [infl, pend]
          have hpos := hi.pos
          rw [h] at hlen hbl
          simp only [List.length_cons] at hlen hbl
          exact mem_suffix_range hsuf (by omega) (by omega)
    | postLeave h hs ht => exact ⟨ih.ql, ih.bl, ih.alive⟩
    | stop hs => exact ⟨ih.ql, fun _ => ih.bl (Or.inl hs), fun _ => ih.alive (Or.inl hs)⟩
    | flush hs h => exact ⟨ih.ql, by simp, by simp⟩
    | postStop hs => exact ⟨ih.ql, by simp, by simp⟩
    | ret hs ht => exact ⟨ih.ql, by simp, by simp⟩

/-- **C50 (partial: payloads are alive)** As long as the stop sequence has not flushed the buffer, every
payload handed to post-processing so far was still stored at that moment, provided no write was
rejected, post-processing kept up (no warning) and every cleanup leaves more payloads than the
post-processing queue holds. -/
theorem C50_alive_partial (c : Cfg) (hk : c.qcap + 1 ≤ c.keep) (s : St) (h : Reach c s)
    (hd : s.dropped = 0) (hl : s.lost = 0) (hs : s.sp = .running ∨ s.sp = .stopping) :
    ∀ x ∈ s.seen, x.2 = true :=
  (inv3_reach c hk s h hd hl).alive hs

/-- Non-vacuity of both: queue of 1, cleanup leaves 2; three payloads stored, one cleaned, two processed. -/
example : ∃ s, Reach ⟨5, 1, 2⟩ s ∧ s.dropped = 0 ∧ s.lost = 0 ∧ s.sp = .running ∧
    s.seen = [(some 0, true), (some 1, true)] ∧ s.buf = [1, 2] := by
  have h0 := Reach.init (c := ⟨5, 1, 2⟩)
  have h1 := Reach.step _ _ h0 (Step.pop _ rfl)
  have h2 := Reach.step _ _ h1 (Step.write _ 0 rfl)
  have h3 := Reach.step _ _ h2 (Step.back _ rfl)
  have h4 := Reach.step _ _ h3 (Step.pop _ rfl)
  have h5 := Reach.step _ _ h4 (Step.write _ 1 rfl)
  have h6 := Reach.step _ _ h5 (Step.post _ (some 0) [] rfl rfl)
  have h7 := Reach.step _ _ h6 (Step.back _ rfl)
  have h8 := Reach.step _ _ h7 (Step.post _ (some 1) [] rfl rfl)
  have h9 := Reach.step _ _ h8 (Step.pop _ rfl)
  have h10 := Reach.step _ _ h9 (Step.write _ 2 rfl)
  have h11 := Reach.step _ _ h10 (Step.clean _ 1 (by decide) rfl)
  exact ⟨_, h11, rfl, rfl, rfl, rfl, rfl⟩

/-- **C50 is false of the code (lag)**: without the bound on the queue a running system processes a
payload that was cleaned up (queue of 4, cleanup leaves 1). -/
theorem C50_lagging_counterexample :
    ∃ s, Reach ⟨5, 4, 1⟩ s ∧ s.dropped = 0 ∧ s.lost = 0 ∧ s.sp = .running ∧ s.seen = [(some 0, false)] := by
  have h0 := Reach.init (c := ⟨5, 4, 1⟩)
  have h1 := Reach.step _ _ h0 (Step.pop _ rfl)
  have h2 := Reach.step _ _ h1 (Step.write _ 0 rfl)
  have h3 := Reach.step _ _ h2 (Step.back _ rfl)
  have h4 := Reach.step _ _ h3 (Step.pop _ rfl)
  have h5 := Reach.step _ _ h4 (Step.write _ 1 rfl)
  have h6 := Reach.step _ _ h5 (Step.clean _ 1 (by decide) rfl)
  have h7 := Reach.step _ _ h6 (Step.post _ (some 0) [] rfl rfl)
  exact ⟨_, h7, rfl, rfl, rfl, rfl⟩

theorem confs_shape (f n : Nat) : (confs f n).fns = List.replicate n f ∧
    2 * (confs f n).queues = n * (n + 1) := by
  induction n with
  | zero => simp [confs]
  | succ n ih =>
    obtain ⟨h1, h2⟩ := ih
    have e : (confs f (n+1)).fns = (confs f n).fns ++ [f] := rfl
    have e2 : (confs f (n+1)).queues = (confs f n).queues + ((confs f n).fns ++ [f]).length := rfl
    refine ⟨by rw [e, h1, List.replicate_succ'], ?_⟩
    rw [e2, h1]
    simp only [List.length_append, List.length_replicate, List.length_singleton]
    have : (n + 1) * (n + 1 + 1) = n * (n + 1) + 2 * (n + 1) := by
      rw [Nat.mul_comm (n+1) (n+1+1), Nat.add_mul (n) 2 (n+1)] 
    omega

/-- **C61 is false of the code**: every further conf command registers the post-processing function once
more, so after `n` of them each payload is processed `n` times (concurrently, by `n` threads), and from the
second one on there are queues that fill up without ever being read. -/
theorem C61_reconfigured_counterexample (f n : Nat) (hn : 2 ≤ n) :
    invoked (confs f n) = List.replicate n f ∧ 0 < unread (confs f n) := by
  obtain ⟨h1, h2⟩ := confs_shape f n
  have : 3 * n ≤ n * (n + 1) := by rw [Nat.mul_comm 3]; exact Nat.mul_le_mul_left _ (by omega)
  refine ⟨?_, ?_⟩
  · unfold invoked
    rw [h1, List.take_of_length_le (by simp; omega)]
  · unfold unread
    rw [h1]; simp; omega

/-- **C61 (partial)** After the first conf each payload is processed once and no queue is unread. -/
theorem C61_first_conf_partial (f : Nat) : invoked (confs f 1) = [f] ∧ unread (confs f 1) = 0 := by
  constructor <;> simp [invoked, unread, confs, confTask]

example : invoked (confs 3 1) = [3] ∧ invoked (confs 3 2) = [3, 3] := by decide

end Verif.Consume
