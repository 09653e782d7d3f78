import Verif.ConcProtModel
import Verif.ConcReqProps
import Verif.ProtocolProps
/- Property C91 with the protocol of C19 in place of the assumption that cleanups and requests exclude each other. -/
namespace Verif.ConcProt
open Verif.DataReq Verif.ConcReq

variable {P : Type} {T : PayloadType P} {k : Lookup} {geo : GeoId} {ft n : Nat} {hw : Hw} {arr : List P → Prop}

/-- Threads counted as inside stay so, but for those that leave. -/
theorem inside_kept {m : Nat} {p q : Protocol.St} (hp : Protocol.Reach m p) (st : Protocol.Own p q ∨ Protocol.EnvStep p q)
    (hr : q.running = p.running) (t : Nat) (x : Protocol.RPc) (h : p.threads[t]? = some x)
    (hi : Protocol.inside x = true) : ∃ y, q.threads[t]? = some y ∧ Protocol.inside y = true := by
  have inv := Protocol.inv_reach hp
  have set : ∀ (i : Nat) (a b : Protocol.RPc), p.threads[i]? = some a →
      (Protocol.inside a = true → Protocol.inside b = true) →
      ∃ y, (p.threads.set i b)[t]? = some y ∧ Protocol.inside y = true := by
    intro i a b ha hab
    by_cases e : i = t
    · subst e
      rw [h] at ha; injection ha with ha; subst ha
      have := Protocol.getElem?_lt' h
      exact ⟨b, by simp [this], hab hi⟩
    · exact ⟨x, by rw [List.getElem?_set_ne e]; exact h, hi⟩
  have wake : ∀ (i : Nat) (a b : Protocol.RPc), p.threads[i]? = some a →
      (Protocol.inside a = true → Protocol.inside b = true) →
      ∃ y, ((p.threads.map Protocol.wakeR).set i b)[t]? = some y ∧ Protocol.inside y = true := by
    intro i a b ha hab
    by_cases e : i = t
    · subst e
      rw [h] at ha; injection ha with ha; subst ha
      have := Protocol.getElem?_lt' h
      exact ⟨b, by simp [this], hab hi⟩
    · refine ⟨x, ?_, hi⟩
      rw [List.getElem?_set_ne e, List.getElem?_map, h]
      cases x <;> simp_all [Protocol.wakeR, Protocol.inside]
  have same : ∃ y, p.threads[t]? = some y ∧ Protocol.inside y = true := ⟨x, h, hi⟩
  rcases st with (st | st) | st
  · cases st with
    | lock i h' hm => exact set i _ _ h' (by simp [Protocol.inside])
    | wait i h' hf => exact set i _ _ h' (by simp [Protocol.inside])
    | enter i h' hf => simp at hr
    | notifyIn i h' => exact wake i _ _ h' (by simp [Protocol.inside])
    | served i h' => exact set i _ _ h' (by simp [Protocol.inside])
    | lockOut i h' hm => exact set i _ _ h' (by simp [Protocol.inside])
    | leave i h' =>
      simp only at hr
      have h0 : (p.threads.map Protocol.ins).sum = 0 := by rw [← inv.run]; omega
      have := Protocol.ins_zero h0 h'
      simp [Protocol.inside] at this
    | notifyOut i h' => exact wake i _ _ h' (by simp [Protocol.inside])
  · cases st with
    | notify h' =>
      refine ⟨x, ?_, hi⟩
      show (p.threads.map Protocol.wakeR)[t]? = some x
      rw [List.getElem?_map, h]
      cases x <;> simp_all [Protocol.wakeR, Protocol.inside]
    | _ => exact same
  · cases st with
    | newRequest i h' => exact set i _ _ h' (by simp [Protocol.inside])
    | newCheck h' => exact same
    | spuriousR i h' => exact set i _ _ h' (by simp [Protocol.inside])
    | spuriousC h' => exact same

/-- The two parts fit together. -/
structure Inv (T : PayloadType P) (k : Lookup) (geo : GeoId) (ft n : Nat) (hw : Hw) (arr : List P → Prop) (m : Nat)
    (s : St P) : Prop where
  prot : Protocol.Reach m s.prot
  sys : ConcReq.Reach T k geo ft n hw arr s.sys
  tasks : ∀ t, s.sys.tasks t ≠ none → ∃ x, s.prot.threads[t]? = some x ∧ Protocol.inside x = true

theorem set_inside {s : St P} {i : Nat} {a b : Protocol.RPc}
    (h : ∀ t, s.sys.tasks t ≠ none → ∃ x, s.prot.threads[t]? = some x ∧ Protocol.inside x = true)
    (ha : s.prot.threads[i]? = some a) (hb : Protocol.inside b = true) :
    ∀ t, s.sys.tasks t ≠ none → ∃ x, (s.prot.threads.set i b)[t]? = some x ∧ Protocol.inside x = true := by
  intro t ht
  by_cases e : i = t
  · subst e
    have := Protocol.getElem?_lt' ha
    exact ⟨b, by simp [this], hb⟩
  · obtain ⟨x, h1, h2⟩ := h t ht
    exact ⟨x, by rw [List.getElem?_set_ne e]; exact h1, h2⟩

theorem inv_step {m : Nat} {s s' : St P} (inv : Inv T k geo ft n hw arr m s) (st : ConcProt.Step T k geo ft n hw arr s s') :
    Inv T k geo ft n hw arr m s' := by
  cases st with
  | publish p ha hc => exact ⟨inv.prot, .step inv.sys (.publish _ p ha hc), inv.tasks⟩
  | clean j m' h h1 h2 h3 h4 =>
    have none : ∀ t, s.sys.tasks t = none := by
      intro t
      apply Classical.byContradiction
      intro ht
      obtain ⟨x, hx, hi⟩ := inv.tasks t ht
      have pi := Protocol.inv_reach inv.prot
      have h0 : (s.prot.threads.map Protocol.ins).sum = 0 := by rw [← pi.run]; exact pi.clean h
      rw [Protocol.ins_zero h0 hx] at hi
      cases hi
    exact ⟨inv.prot, .step inv.sys (.cleanup _ j m' none h1 h2 h3 h4), inv.tasks⟩
  | enter i dr h hf hr =>
    have hn : s.sys.tasks i = none := by
      apply Classical.byContradiction
      intro ht
      obtain ⟨x, hx, hi⟩ := inv.tasks i ht
      rw [h] at hx; injection hx with hx; subst hx
      cases hi
    refine ⟨.own _ _ inv.prot (.inl (.enter _ i h hf)), .step inv.sys (.enter _ i dr hn hr), ?_⟩
    intro t ht
    by_cases e : i = t
    · subst e
      have := Protocol.getElem?_lt' h
      exact ⟨.entered, by simp [enterProt, this], rfl⟩
    · have ht' : s.sys.tasks t ≠ none := by
        intro h0
        apply ht
        simp [Sys.put, setTask, h0, Ne.symm e]
      obtain ⟨x, h1, h2⟩ := inv.tasks t ht'
      exact ⟨x, by simp only [enterProt]; rw [List.getElem?_set_ne e]; exact h1, h2⟩
  | enterRec i h hf =>
    exact ⟨.own _ _ inv.prot (.inl (.enter _ i h hf)), inv.sys, set_inside inv.tasks h rfl⟩
  | work i sys' h st h1 h2 h3 h4 h5 h6 =>
    refine ⟨inv.prot, .step inv.sys st, ?_⟩
    intro t ht
    by_cases e : t = i
    · subst e; exact ⟨_, h, rfl⟩
    · exact inv.tasks t (by rw [← h6 t e]; exact ht)
  | served i h hx =>
    exact ⟨.own _ _ inv.prot (.inl (.served _ i h)), inv.sys, set_inside inv.tasks h rfl⟩
  | leave i x r h ht hp =>
    refine ⟨.own _ _ inv.prot (.inl (.leave _ i h)), .step inv.sys (.leave _ i x r ht hp), ?_⟩
    intro t ht'
    have e : i ≠ t := by
      intro e
      subst e
      simp [setTask] at ht'
    have ht'' : s.sys.tasks t ≠ none := by
      intro h0
      apply ht'
      simp [setTask, h0]
    obtain ⟨y, h1, h2⟩ := inv.tasks t ht''
    exact ⟨y, by simp only [leaveProt]; rw [List.getElem?_set_ne e]; exact h1, h2⟩
  | leaveRec i h ht =>
    refine ⟨.own _ _ inv.prot (.inl (.leave _ i h)), inv.sys, ?_⟩
    intro t ht'
    have e : i ≠ t := by
      intro e
      subst e
      exact ht' ht
    obtain ⟨y, h1, h2⟩ := inv.tasks t ht'
    exact ⟨y, by simp only [leaveProt]; rw [List.getElem?_set_ne e]; exact h1, h2⟩
  | prot p st hr ha =>
    refine ⟨?_, inv.sys, ?_⟩
    · rcases st with st | st
      · exact .own _ _ inv.prot st
      · exact .env _ _ inv.prot st
    · intro t ht
      obtain ⟨x, h1, h2⟩ := inv.tasks t ht
      exact inside_kept inv.prot st hr t x h1 h2

theorem inv_reach {m : Nat} {s : St P} (h : ConcProt.Reach T k geo ft n hw arr m s) : Inv T k geo ft n hw arr m s := by
  induction h with
  | init => exact ⟨.init, .init, fun t ht => absurd rfl ht⟩
  | step _ st ih => exact inv_step ih st

/-- **C91 (partial)** With the mutex, the counter and the flag of the code instead of the assumption that cleanups and requests
exclude each other, any number of threads, a recording among them: nothing undefined happens, and every request is answered
for what was stored at one moment, as in `C91_requests_while_data_arrives_partial`. -/
theorem C91_protocol_partial (T : PayloadType P) (k : Lookup) (geo : GeoId) (ft n m : Nat) (hn : 2 ≤ n)
    (hs : n < 2147483648) (arr : List P → Prop) (ha : ArrOk T k n arr) (hw : Hw)
    (hst : hw.back = .acquire ∨ hw.strong = true) (hreq : Admitted k hw) (s : St P) (h : ConcProt.Reach T k geo ft n hw arr m s) :
    s.sys.bad = false ∧ ∀ d ∈ s.sys.done, ∃ j, d.from_ ≤ j ∧ j ≤ d.last ∧ (hw.fresh = true → d.len ≤ j) ∧
      Reply T k geo ft ((s.sys.pub.take j).drop d.first) d.dr d.result :=
  C91_requests_while_data_arrives_partial T k geo ft n hn hs arr ha hw hst hreq s.sys (inv_reach h).sys

/-- **C91 (partial)** In the same system a fragment given out as found holds exactly the frames of its window among everything
received before, during and after the request. -/
theorem C91_protocol_complete_partial (T : PayloadType P) (k : Lookup) (geo : GeoId) (ft n m : Nat) (hn : 2 ≤ n)
    (hs : n < 2147483648) (arr : List P → Prop) (ha : ArrOk T k n arr) (hw : Hw)
    (hst : hw.back = .acquire ∨ hw.strong = true) (hreq : Admitted k hw) (s : St P) (h : ConcProt.Reach T k geo ft n hw arr m s) (d : Done P)
    (hd : d ∈ s.sys.done) (hc : d.result.code = .found) :
    d.result.fragment = some ⟨createHeader geo ft d.dr, wanted T s.sys.pub d.dr.wBegin d.dr.wEnd⟩ :=
  C91_found_is_complete_partial T k geo ft n hn hs arr ha hw hst hreq s.sys (inv_reach h).sys d hd hc

/-- **C91 (the first payload stays)** While a request runs, whatever the other threads do, no payload is removed. -/
theorem C91_no_removal_while_running (T : PayloadType P) (k : Lookup) (geo : GeoId) (ft n m : Nat) (hw : Hw)
    (arr : List P → Prop) (s s' : St P) (h : ConcProt.Reach T k geo ft n hw arr m s) (st : ConcProt.Step T k geo ft n hw arr s s') (t : Nat)
    (ht : s.sys.tasks t ≠ none) : s'.sys.popped = s.sys.popped := by
  have inv := inv_reach h
  cases st with
  | clean j m' hc h1 h2 h3 h4 =>
    obtain ⟨x, hx, hi⟩ := inv.tasks t ht
    have pi := Protocol.inv_reach inv.prot
    have h0 : (s.prot.threads.map Protocol.ins).sum = 0 := by rw [← pi.run]; exact pi.clean hc
    rw [Protocol.ins_zero h0 hx] at hi
    cases hi
  | work i sys' h st h1 h2 h3 h4 h5 h6 => exact h2
  | _ => rfl

/-! ### A concrete execution -/

theorem stepTask_keeps {hw : Hw} {b : Bool} {s s' : Sys P} {t : Nat} (h : stepTask n hw b s t = some s')
    (ht : s'.tasks t ≠ none) : s'.pub = s.pub ∧ s'.popped = s.popped ∧ s'.view = s.view ∧ s.tasks t ≠ none ∧
      ∀ u, u ≠ t → s'.tasks u = s.tasks u := by
  have put : ∀ (x : ConcReq.Task P), (s.put t x).pub = s.pub ∧ (s.put t x).popped = s.popped ∧
      (s.put t x).view = s.view ∧ ∀ u, u ≠ t → (s.put t x).tasks u = s.tasks u := by
    intro x
    exact ⟨rfl, rfl, rfl, fun u hu => by simp [Sys.put, setTask, hu]⟩
  unfold stepTask at h
  split at h
  · simp at h
  · rename_i x hx
    have hs : s.tasks t ≠ none := by rw [hx]; simp
    split at h <;> rename_i hp
    · injection h with h; subst h; simp [setTask] at ht
    · simp at h
    · split at h
      · injection h with h; subst h
        obtain ⟨a, b, c, d⟩ := put { x with
          prog := _, seen := s.pub.length,
          sync := _ }
        exact ⟨a, b, c, hs, d⟩
      · simp at h
    · injection h with h; subst h
      obtain ⟨a, b, c, d⟩ := put { x with prog := _ }
      exact ⟨a, b, c, hs, d⟩
    · split at h
      · split at h
        · simp at h
        · injection h with h; subst h
          obtain ⟨a, b, c, d⟩ := put { x with prog := _ }
          exact ⟨a, b, c, hs, d⟩
      · injection h with h; subst h
        exact ⟨rfl, rfl, rfl, hs, fun _ _ => rfl⟩
    · injection h with h; subst h
      obtain ⟨a, b, c, d⟩ := put { x with prog := _ }
      exact ⟨a, b, c, hs, d⟩
    · injection h with h; subst h
      obtain ⟨a, b, c, d⟩ := put { x with prog := _ }
      exact ⟨a, b, c, hs, d⟩

/-- At most `m` steps of the request of thread `t`, loads returning the newest value; stops before it leaves. -/
def works (n : Nat) (hw : Hw) (b : Bool) (t : Nat) : Nat → Sys P → Sys P
  | 0, s => s
  | m + 1, s =>
    match stepTask n hw b s t with
    | some s' => if (s'.tasks t).isSome then works n hw b t m s' else s
    | none => s

theorem works_reach {hw : Hw} {b : Bool} {t m k' : Nat} {s : St P} (ha : s.prot.threads[t]? = some .active)
    (h : ConcProt.Reach T .binary geo ft n hw arr m s) :
    ConcProt.Reach T .binary geo ft n hw arr m { s with sys := works n hw b t k' s.sys } := by
  induction k' generalizing s with
  | zero => exact h
  | succ k' ih =>
    unfold works
    split
    · rename_i s' hs
      split
      · rename_i hi
        have hi' : s'.tasks t ≠ none := by
          intro h0
          rw [h0] at hi
          cases hi
        obtain ⟨h1, h2, h3, h4, h6⟩ := stepTask_keeps hs hi'
        exact ih (s := { s with sys := s' }) ha (.step h (.work s t s' ha (stepTask_sound hs trivial) h1 h2 h3 h4 hi' h6))
      · exact h
    · exact h

/-- The request of `demo` has entered, and the cleanup waits for it. -/
def mid : Protocol.St := { threads := [.active, .idle], cleaner := .blocked, mutex := none, running := 1, flag := true }

/-- Two payloads and the request for some of their frames. -/
def asked : Sys Nat := ⟨[1000, 1300], 0, 0, setTask (fun _ => none) 0
    (some ⟨dataRequest wibLike .binary ⟨0, 0, 0⟩ 1 4 .acquire .relaxed ask, 0, 0, ask, 0, 2⟩), [], false⟩

/-- The request after a third payload has come between two of its steps, at its end. -/
def served : Sys Nat :=
  let s := works 4 ⟨false, true, .acquire, .relaxed, anyRequest⟩ true 0 4 asked
  works 4 ⟨false, true, .acquire, .relaxed, anyRequest⟩ true 0 60 { s with pub := s.pub ++ [1600] }

abbrev R2 : St Nat → Prop := ConcProt.Reach wibLike .binary ⟨0, 0, 0⟩ 1 4 ⟨false, true, .acquire, .relaxed, anyRequest⟩ wibs 2

theorem mid_reach : R2 ⟨mid, asked⟩ := by
  have r : R2 (St.init Nat 2) := .init
  have r := Reach.step r (.publish _ 1000 (by unfold wibs Increasing; decide) (by decide))
  have r := Reach.step r (.publish _ 1300 (by unfold wibs Increasing; decide) (by decide))
  have r := Reach.step r (.prot _ _ (.inr (.newRequest _ 0 rfl)) rfl
    (by intro i; rcases i with _ | _ | i <;> simp [St.init, Protocol.St.init]))
  have r := Reach.step r (.prot _ _ (.inl (.inl (.lock _ 0 rfl rfl))) rfl
    (by intro i; rcases i with _ | _ | i <;> simp [St.init, Protocol.St.init]))
  have r := Reach.step r (.enter _ 0 ask rfl rfl trivial)
  have r := Reach.step r (.prot _ _ (.inl (.inl (.notifyIn _ 0 rfl))) rfl
    (by intro i; rcases i with _ | _ | i <;> simp [St.init, Protocol.St.init, enterProt]))
  have r := Reach.step r (.prot _ _ (.inr (.newCheck _ rfl)) rfl (fun _ h => h))
  have r := Reach.step r (.prot _ _ (.inl (.inr (.lock _ rfl rfl))) rfl (fun _ h => h))
  have r := Reach.step r (.prot _ _ (.inl (.inr (.request _ rfl rfl))) rfl (fun _ h => h))
  have r := Reach.step r (.prot _ _ (.inl (.inr (.wait _ rfl (by decide)))) rfl (fun _ h => h))
  exact r

theorem served_reach : R2 ⟨mid, served⟩ := by
  have r := works_reach (b := true) (t := 0) (k' := 4) rfl mid_reach
  have r := Reach.step r (.publish _ 1600
    (by
      show wibs ((works 4 ⟨false, true, .acquire, .relaxed, anyRequest⟩ true 0 4 asked).pub ++ [1600])
      rw [show (works 4 ⟨false, true, .acquire, .relaxed, anyRequest⟩ true 0 4 asked).pub = [1000, 1300] by decide +kernel]
      unfold wibs Increasing; decide) (by decide +kernel))
  exact works_reach (b := true) (t := 0) (k' := 60) rfl r

/-- The request leaves, the cleanup is woken and removes the oldest payload. -/
theorem leave_clean (v : Sys Nat) (x : ConcReq.Task Nat) (r : Result Nat) (h : R2 ⟨mid, v⟩) (hx : v.tasks 0 = some x)
    (hr : x.prog = .ret r) (hv : max v.view x.sync ≤ 3) (hp : 3 ≤ v.pub.length) (h0 : v.popped ≤ 1) :
    ∃ s : St Nat, R2 s ∧ s.sys.popped = 1 ∧ s.sys.done = v.done ++ [⟨r, x.dr, x.from_, x.len, v.popped, v.pub.length⟩] := by
  have q := Reach.step h (.served _ 0 rfl (by intro y hy; rw [hx] at hy; injection hy with hy; subst hy; exact ⟨r, hr⟩))
  have q := Reach.step q (.prot _ _ (.inl (.inl (.lockOut _ 0 rfl rfl))) rfl
    (by intro i; rcases i with _ | _ | i <;> simp [mid]))
  have q := Reach.step q (.leave _ 0 x r rfl hx hr)
  have q := Reach.step q (.prot _ _ (.inl (.inl (.notifyOut _ 0 rfl))) rfl
    (by intro i; rcases i with _ | _ | i <;> simp [mid, leaveProt]))
  have q := Reach.step q (.prot _ _ (.inl (.inr (.relock _ rfl rfl))) rfl (fun _ h => h))
  have q := Reach.step q (.prot _ _ (.inl (.inr (.go _ rfl rfl))) rfl (fun _ h => h))
  have q := Reach.step q (.clean _ 3 1 rfl hv hp h0 (by decide))
  exact ⟨_, q, rfl, rfl⟩

theorem demo_reach : ∃ s : St Nat, R2 s ∧ s.sys.popped = 1 ∧
    s.sys.done.map (fun d => (d.result.code, d.result.fragment.map fun f => f.frames)) =
      [(.found, some ((List.range 8).map fun i => (1000, i + 4)))] := by
  have h1 : (match served.tasks 0 with
      | some x => (match x.prog with
        | .ret r => decide ((r.code, r.fragment.map fun f => f.frames) =
            (.found, some ((List.range 8).map fun i => (1000, i + 4)))) && decide (max served.view x.sync ≤ 3)
        | _ => false)
      | none => false) = true := by decide +kernel
  have hp : 3 ≤ served.pub.length := by decide +kernel
  have h0 : served.popped ≤ 1 := by decide +kernel
  have hd : served.done.map (fun d => (d.result.code, d.result.fragment.map fun f => f.frames)) = [] := by decide +kernel
  have hq := served_reach
  generalize served = v at h1 hp h0 hd hq
  split at h1
  · rename_i x hx
    split at h1
    · rename_i r hr
      rw [Bool.and_eq_true] at h1
      obtain ⟨s, hs, h2, h3⟩ := leave_clean v x r hq hx hr (of_decide_eq_true h1.2) hp h0
      refine ⟨s, hs, h2, ?_⟩
      rw [h3, List.map_append, hd]
      simpa using of_decide_eq_true h1.1
    · cases h1
  · cases h1

/-- Non-vacuity for C91 with the protocol: a payload arrives during a request for which a cleanup waits; the request finds its
eight frames, and then the cleanup removes the oldest payload. -/
example : ArrOk wibLike .binary 4 wibs ∧ ∃ s s' : St Nat, R2 s ∧ s.sys.tasks 0 ≠ none ∧ s.prot.cleaner = .blocked ∧
    R2 s' ∧ s'.sys.popped = 1 ∧ s'.sys.done.map (fun d => d.result.code) = [.found] := by
  refine ⟨wibs_ok _ (.inl rfl), ⟨mid, asked⟩, ?_⟩
  obtain ⟨s', h, hp, hd⟩ := demo_reach
  refine ⟨s', mid_reach, by simp [asked, setTask], rfl, h, hp, ?_⟩
  have := congrArg (List.map Prod.fst) hd
  simpa [List.map_map] using this

end Verif.ConcProt
