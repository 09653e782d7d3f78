import Verif.MonReqModel
/- Property C95: the request statistics in the monitoring reports. -/
namespace Verif.MonReq
open Verif.DataReq

/-- Sum of the values of one counter over all reports. -/
def total (c : Ctr) (log : List (Ctr × Nat)) : Nat := ((log.filter (fun p => decide (p.1 = c))).map (·.2)).sum

/-- How often an action is still to be performed for a request. -/
def todo (a : Act) (ts : List (List Act)) : Nat := (ts.map (·.count a)).sum

theorem total_append (c : Ctr) (l m : List (Ctr × Nat)) : total c (l ++ m) = total c l + total c m := by
  simp [total]

theorem total_single (c d : Ctr) (v : Nat) : total c [(d, v)] = if d = c then v else 0 := by
  by_cases h : d = c <;> simp [total, h]

theorem todo_append (a : Act) (l m : List (List Act)) : todo a (l ++ m) = todo a l + todo a m := by
  simp [todo]

theorem todo_keep (a : Act) (r : List Act) : todo a (keep r) = r.count a := by
  cases r <;> simp [todo, keep]

theorem todo_single (a : Act) (r : List Act) : todo a [r] = r.count a := by simp [todo]

theorem todo_nil (a : Act) : todo a [] = 0 := rfl

theorem todo_act (a b : Act) (r : List Act) (pre post : List (List Act)) :
    todo b (pre ++ (a :: r) :: post) = todo b (pre ++ keep r ++ post) + if a = b then 1 else 0 := by
  have : pre ++ (a :: r) :: post = pre ++ ([a :: r] ++ post) := by simp
  rw [this]
  simp only [todo_append, todo_keep, todo_single, List.count_cons, beq_iff_eq]
  omega

/-! ### Counts -/

/-- What holds of the exact values `raw` that the reports took, in a run. -/
structure Counts (s : St) (raw : List (Ctr × Nat)) : Prop where
  found : total .found raw + s.val .found + todo (.add .found) s.tasks = s.frags.count false + todo (.push false) s.tasks
  bad : total .bad raw + s.val .bad + todo (.add .bad) s.tasks = s.frags.count true + todo (.push true) s.tasks
  sub : (total .oldWindow raw + s.val .oldWindow + todo (.add .oldWindow) s.tasks) +
      (total .uncategorized raw + s.val .uncategorized + todo (.add .uncategorized) s.tasks) +
      (total .timedOut raw + s.val .timedOut + todo (.add .timedOut) s.tasks) ≤
    total .bad raw + s.val .bad + todo (.add .bad) s.tasks
  all : s.received = s.frags.length + s.waiting + todo (.push false) s.tasks + todo (.push true) s.tasks +
    todo .park s.tasks

/-- `start` is zeroing the counters. -/
structure Starting (s : St) : Prop where
  tasks : s.tasks = []
  frags : s.frags = []
  received : s.received = 0
  waiting : s.waiting = 0
  since : s.overlap = false → s.since = [] ∧ s.log = [] ∧ s.avgs = [] ∧ (s.torn = false → s.mon ≠ [.time])
  zero : ∀ c, c ∉ s.starting → s.val c = 0

/-- A reported value from an exact one. -/
def shown (p : Ctr × Nat) : Ctr × Nat := (p.1, u64 (int32 p.2))

/-- A task is the rest of an attempt. -/
def Rest (r : List Act) : Prop := r ≠ [] ∧ ∃ us m, r <:+ prog us m

structure Inv (s : St) : Prop where
  rest : ∀ r ∈ s.tasks, Rest r
  mon : s.mon <:+ order
  start : s.starting ≠ [] → Starting s
  run : s.starting = [] → s.overlap = false → ∃ raw, s.log = raw.map shown ∧ Counts s raw

theorem rest_tail {a : Act} {r : List Act} (h : Rest (a :: r)) (hr : r ≠ []) : Rest r := by
  obtain ⟨_, us, m, hs⟩ := h
  exact ⟨hr, us, m, (List.suffix_cons a r).trans hs⟩

theorem rest_keep {a : Act} {r : List Act} {pre post : List (List Act)}
    (h : ∀ x ∈ pre ++ (a :: r) :: post, Rest x) : ∀ x ∈ pre ++ keep r ++ post, Rest x := by
  intro x hx
  simp only [List.mem_append] at hx
  rcases hx with (hx | hx) | hx
  · exact h x (by simp [hx])
  · cases r with
    | nil => simp [keep] at hx
    | cons b r =>
      simp only [keep, List.mem_singleton] at hx
      subst hx
      exact rest_tail (h (a :: b :: r) (by simp)) (by simp)
  · exact h x (by simp [hx])

theorem prog_ne_nil (us : Nat) (m : Met) : prog us m ≠ [] := by
  cases m <;> simp [prog]
  case late b => cases b <;> simp

theorem rest_prog (us : Nat) (m : Met) : Rest (prog us m) := ⟨prog_ne_nil us m, us, m, List.suffix_refl _⟩

theorem pool_counts (us : Nat) (m : Met) :
    (prog us m).count (.add .found) = (prog us m).count (.push false) ∧
    (prog us m).count (.add .bad) = (prog us m).count (.push true) ∧
    (prog us m).count (.add .oldWindow) + (prog us m).count (.add .uncategorized) +
      (prog us m).count (.add .timedOut) ≤ (prog us m).count (.add .bad) ∧
    (prog us m).count (.push false) + (prog us m).count (.push true) + (prog us m).count .park = 1 := by
  cases m <;> simp [prog]
  case late b => cases b <;> simp [List.count_cons]

theorem counts_new {s : St} {raw : List (Ctr × Nat)} (h : Counts s raw) (us : Nat) (m : Met) (n w : Nat)
    (hn : n + s.waiting = s.received + 1 + w) :
    Counts { s with received := n, waiting := w, tasks := s.tasks ++ [prog us m] } raw := by
  obtain ⟨h1, h2, h3, h4⟩ := h
  obtain ⟨p1, p2, p3, p4⟩ := pool_counts us m
  refine ⟨?_, ?_, ?_, ?_⟩ <;> simp only [todo_append, todo_single] <;> omega

theorem counts_act {s : St} {raw : List (Ctr × Nat)} (h : Counts s raw) (pre post : List (List Act)) (a : Act)
    (r : List Act) (ht : s.tasks = pre ++ (a :: r) :: post) :
    Counts (perform s (pre ++ keep r ++ post) a) raw := by
  obtain ⟨h1, h2, h3, h4⟩ := h
  rw [ht] at h1 h2 h3 h4
  simp only [todo_act] at h1 h2 h3 h4
  cases a with
  | add c =>
    cases c <;> refine ⟨?_, ?_, ?_, ?_⟩ <;> simp [perform, upd] at h1 h2 h3 h4 ⊢ <;> omega
  | push e =>
    cases e <;> refine ⟨?_, ?_, ?_, ?_⟩ <;> simp [perform, List.count_cons] at h1 h2 h3 h4 ⊢ <;> omega
  | park => refine ⟨?_, ?_, ?_, ?_⟩ <;> simp [perform] at h1 h2 h3 h4 ⊢ <;> omega
  | time us => refine ⟨?_, ?_, ?_, ?_⟩ <;> simp [perform, upd] at h1 h2 h3 h4 ⊢ <;> omega
  | done us => refine ⟨?_, ?_, ?_, ?_⟩ <;> simp [perform, upd] at h1 h2 h3 h4 ⊢ <;> omega

theorem counts_take {s : St} {raw : List (Ctr × Nat)} (h : Counts s raw) (c : Ctr) (r : List Ctr) :
    Counts (take s c r) (raw ++ [(c, s.val c)]) := by
  obtain ⟨h1, h2, h3, h4⟩ := h
  cases c <;> refine ⟨?_, ?_, ?_, ?_⟩ <;> simp [take, upd, total_append, total_single] at h1 h2 h3 h4 ⊢ <;> omega

theorem perform_other (s : St) (ts : List (List Act)) (a : Act) :
    (perform s ts a).tasks = ts ∧ (perform s ts a).mon = s.mon ∧ (perform s ts a).starting = s.starting ∧
    (perform s ts a).overlap = s.overlap ∧ (perform s ts a).log = s.log := by
  cases a <;> exact ⟨rfl, rfl, rfl, rfl, rfl⟩

theorem inv_step {s s' : St} (h : Inv s) (st : Step s s') : Inv s' := by
  obtain ⟨ir, im, is, ic⟩ := h
  cases st with
  | issue m us hm hs =>
    refine ⟨?_, im, fun h => absurd hs h, fun _ ho => ?_⟩
    · intro r hr
      rcases List.mem_append.1 hr with hr | hr
      · exact ir r hr
      · simp at hr; subst hr; exact rest_prog us m
    · obtain ⟨raw, hl, hc⟩ := ic hs ho
      exact ⟨raw, hl, counts_new hc us m (s.received + 1) s.waiting (by omega)⟩
  | again m us hm hs w hw =>
    refine ⟨?_, im, fun h => absurd hs h, fun _ ho => ?_⟩
    · intro r hr
      rcases List.mem_append.1 hr with hr | hr
      · exact ir r hr
      · simp at hr; subst hr; exact rest_prog us m
    · obtain ⟨raw, hl, hc⟩ := ic hs ho
      exact ⟨raw, hl, counts_new hc us m s.received w (by omega)⟩
  | giveUp m hm hs w hw =>
    refine ⟨?_, im, fun h => absurd hs h, fun _ ho => ?_⟩
    · intro r hr
      rcases List.mem_append.1 hr with hr | hr
      · exact ir r hr
      · simp at hr; subst hr; exact rest_prog 0 m
    · obtain ⟨raw, hl, hc⟩ := ic hs ho
      exact ⟨raw, hl, counts_new hc 0 m s.received w (by omega)⟩
  | act pre post a r ht =>
    obtain ⟨e1, e2, e3, e4, e5⟩ := perform_other s (pre ++ keep r ++ post) a
    refine ⟨?_, by rw [e2]; exact im, fun h => ?_, fun h1 h2 => ?_⟩
    · rw [e1]; rw [ht] at ir; exact rest_keep ir
    · rw [e3] at h
      have := (is h).tasks
      rw [ht] at this
      simp at this
    · rw [e3] at h1; rw [e4] at h2
      obtain ⟨raw, hl, hc⟩ := ic h1 h2
      exact ⟨raw, by rw [e5]; exact hl, counts_act hc pre post a r ht⟩
  | report h =>
    refine ⟨ir, List.suffix_refl _, fun hs => ?_, fun hs ho => ?_⟩
    · obtain ⟨a, b, c, d, e, f⟩ := is hs
      exact ⟨a, b, c, d, fun ho => ⟨(e ho).1, (e ho).2.1, (e ho).2.2.1, fun _ => by simp [order]⟩, f⟩
    · obtain ⟨raw, hl, hc⟩ := ic hs ho
      exact ⟨raw, hl, ⟨hc.found, hc.bad, hc.sub, hc.all⟩⟩
  | take c r h =>
    refine ⟨ir, ?_, fun hs => ?_, fun hs ho => ?_⟩
    · rw [h] at im
      exact (List.suffix_cons c r).trans im
    · obtain ⟨a, b, d, e, f, g⟩ := is hs
      refine ⟨a, b, d, e, fun ho => ?_, fun x hx => ?_⟩
      · have hs' : s.starting ≠ [] := hs
        simp [take, hs'] at ho
      · have := g x hx
        simp [take, upd, this]
    · have ho' : s.overlap = false := by
        simp [take] at ho; exact ho.1
      obtain ⟨raw, hl, hc⟩ := ic hs ho'
      exact ⟨raw ++ [(c, s.val c)], by simp [take, hl, shown], counts_take hc c r⟩
  | start hs ht hw =>
    refine ⟨by simp [begin, ht], im, fun _ => ?_, fun h => absurd h (by simp [begin, zeroed])⟩
    refine ⟨ht, rfl, rfl, hw, fun _ => ⟨rfl, rfl, rfl, fun h => ?_⟩, fun c hc => ?_⟩
    · simpa [begin] using h
    · cases c <;> simp [begin, zeroed] at hc
  | zero c r h =>
    have hne : s.starting ≠ [] := by rw [h]; simp
    obtain ⟨a, b, d, e, f, g⟩ := is hne
    have hz : ∀ x, x ∉ r → upd s.val c 0 x = 0 := by
      intro x hx
      by_cases hxc : x = c
      · simp [upd, hxc]
      · simp [upd, hxc, g x (by rw [h]; simp [hxc, hx])]
    refine ⟨ir, im, fun _ => ⟨a, b, d, e, f, hz⟩, fun hr ho => ?_⟩
    have hr' : r = [] := hr
    subst hr'
    refine ⟨[], by simp [(f ho).2.1], ?_⟩
    constructor <;> simp [hz, a, b, d, e, total, todo_nil]

theorem inv_reach {s : St} (h : Reach s) : Inv s := by
  induction h with
  | init =>
    refine ⟨by simp [St.init], List.nil_suffix, by simp [St.init], fun _ _ => ⟨[], rfl, ?_⟩⟩
    constructor <;> simp [St.init, total, todo_nil]
  | step s s' _ st ih => exact inv_step ih st

theorem shown_small {v : Nat} (h : v < 2147483648) : u64 (int32 v) = v := by
  have h1 : v % 4294967296 = v := Nat.mod_eq_of_lt (by omega)
  unfold u64 int32
  rw [h1, if_pos h]
  omega

theorem total_shown {c : Ctr} {raw : List (Ctr × Nat)} (h : total c raw < 2147483648) :
    total c (raw.map shown) = total c raw := by
  induction raw with
  | nil => rfl
  | cons p raw ih =>
    have e1 : total c (p :: raw) = total c [p] + total c raw := total_append c [p] raw
    have e2 : total c ((p :: raw).map shown) = total c [shown p] + total c (raw.map shown) := total_append c [shown p] _
    rw [e1] at h
    rw [e1, e2, ih (by omega)]
    obtain ⟨d, v⟩ := p
    simp only [shown, total_single] at h ⊢
    split
    · next hd => rw [if_pos hd] at h; rw [shown_small (by omega)]
    · rfl

/-- What holds of the rest `a :: r` of an attempt. -/
def Next (a : Act) (r : List Act) : Prop :=
  (match a with
    | .time us => r = [.done us]
    | .done _ => r = []
    | .add c => isMid r = false ∧ c ≠ .handled ∧ c ≠ .time
    | _ => isMid r = false) ∧
  (a :: r).count (.add .found) ≤ (a :: r).count (.push false) ∧
  (a :: r).count (.add .bad) ≤ (a :: r).count (.push true)

def Good : List Act → Prop
  | [] => True
  | a :: r => Next a r ∧ Good r

theorem good_prog (us : Nat) (m : Met) : Good (prog us m) := by
  cases m <;> simp [prog, Good, Next, isMid]
  case late b => cases b <;> simp [Good, Next, isMid]

theorem good_suffix {r l : List Act} (h : r <:+ l) (hl : Good l) : Good r := by
  induction l with
  | nil => rw [List.suffix_nil] at h; subst h; trivial
  | cons a l ih =>
    rcases List.suffix_cons_iff.1 h with h | h
    · subst h; exact hl
    · exact ih h hl.2

theorem rest_next {a : Act} {r : List Act} (h : Rest (a :: r)) : Next a r := by
  obtain ⟨_, us, m, hs⟩ := h
  exact (good_suffix hs (good_prog us m)).1

theorem rest_order {r : List Act} (h : Rest r) :
    r.count (.add .found) ≤ r.count (.push false) ∧ r.count (.add .bad) ≤ r.count (.push true) := by
  cases r with
  | nil => exact absurd rfl h.1
  | cons a r => exact (rest_next h).2

theorem todo_order {ts : List (List Act)} (h : ∀ r ∈ ts, Rest r) :
    todo (.add .found) ts ≤ todo (.push false) ts ∧ todo (.add .bad) ts ≤ todo (.push true) ts := by
  induction ts with
  | nil => simp [todo]
  | cons r ts ih =>
    obtain ⟨i1, i2⟩ := ih (fun x hx => h x (by simp [hx]))
    obtain ⟨r1, r2⟩ := rest_order (h r (by simp))
    simp only [todo, List.map_cons, List.sum_cons] at i1 i2 ⊢
    omega

/-- Reported in the run, or counted and not yet reported. -/
def counted (s : St) (c : Ctr) : Nat := total c s.log + s.val c

/-- **C95 (counts, partial)** In every run that received fewer than 2^31 requests, whatever the interleaving of
requests, waiting requests and reports: the requests counted as found or bad, summed over the reports of the run
and what the next report will show, are at least the fragments sent and at most the requests received; whenever no
request is being worked on, those counted as found are exactly the fragments sent without error bit, those counted
as bad exactly the fragments with error bit, both together are all requests received but the waiting ones, and old,
uncategorised and timed out requests are no more than the bad ones. Missing: runs whose start overlapped a report. -/
theorem C95_counts_partial (s : St) (h : Reach s) (hs : s.starting = []) (ho : s.overlap = false)
    (hr : s.received < 2147483648) :
    s.frags.length ≤ counted s .found + counted s .bad ∧ counted s .found + counted s .bad ≤ s.received ∧
    (s.tasks = [] →
      counted s .found = s.frags.count false ∧ counted s .bad = s.frags.count true ∧
      counted s .found + counted s .bad + s.waiting = s.received ∧
      counted s .oldWindow + counted s .uncategorized + counted s .timedOut ≤ counted s .bad) := by
  have inv := inv_reach h
  obtain ⟨raw, hl, h1, h2, h3, h4⟩ := inv.run hs ho
  obtain ⟨o1, o2⟩ := todo_order inv.rest
  have hlen : s.frags.length = s.frags.count false + s.frags.count true := by
    induction s.frags with
    | nil => rfl
    | cons b l ih => cases b <;> simp [List.count_cons, ih] <;> omega
  unfold counted
  rw [hl, total_shown (by omega), total_shown (by omega), total_shown (by omega), total_shown (by omega),
    total_shown (by omega)]
  refine ⟨by omega, by omega, fun ht => ?_⟩
  rw [ht] at h1 h2 h3 h4
  simp only [todo_nil] at h1 h2 h3 h4
  omega

/-! ### The average -/

/-- Response time of an attempt between its two additions. -/
def midTime : List Act → Nat
  | [.done us] => us
  | _ => 0

def mids (ts : List (List Act)) : Nat := (ts.map midTime).sum

structure Avg (s : St) : Prop where
  quiet : s.mon ≠ [.time] → s.val .handled = s.since.length ∧ s.val .time = s.since.sum + mids s.tasks
  taking : s.mon = [.time] → s.since = [] ∧ s.val .handled = 0 ∧ s.got = s.held.length ∧
    s.val .time = s.held.sum ∧ mids s.tasks = 0
  done : ∀ p ∈ s.avgs, p.1 = average p.2.length p.2.sum

theorem mids_append (l m : List (List Act)) : mids (l ++ m) = mids l + mids m := by simp [mids]

theorem mids_prog (us : Nat) (m : Met) : mids [prog us m] = 0 := by
  cases m <;> simp [mids, prog, midTime]
  case late b => cases b <;> simp [midTime]

theorem mids_any {ts : List (List Act)} (h : ts.any isMid = false) : mids ts = 0 := by
  induction ts with
  | nil => rfl
  | cons r ts ih =>
    simp only [List.any_cons, Bool.or_eq_false_iff] at h
    have : midTime r = 0 := by
      revert h
      unfold midTime isMid
      split <;> simp
    have i := ih h.2
    simp only [mids, List.map_cons, List.sum_cons] at i ⊢
    omega

theorem midTime_of {r : List Act} (h : isMid r = false) : midTime r = 0 := by
  revert h
  unfold midTime isMid
  split <;> simp

theorem mids_keep (r : List Act) : mids (keep r) = midTime r := by
  cases r <;> simp [mids, keep, midTime]

theorem midTime_cons (a : Act) (b : Act) (r : List Act) : midTime (a :: b :: r) = 0 := by
  cases a <;> rfl

def Act.ends : Act → Nat
  | .done us => us
  | _ => 0

def Act.begins : Act → Nat
  | .time us => us
  | _ => 0

/-- Effect of an action on the attempts between their two additions. -/
theorem mids_act {a : Act} {r : List Act} (h : Rest (a :: r)) (pre post : List (List Act)) :
    mids (pre ++ keep r ++ post) + a.ends = mids (pre ++ (a :: r) :: post) + a.begins := by
  have e : pre ++ (a :: r) :: post = pre ++ ([a :: r] ++ post) := by simp
  rw [e]
  have e2 : mids [a :: r] = midTime (a :: r) := by simp [mids]
  simp only [mids_append, mids_keep, e2]
  have hn := (rest_next h).1
  cases a with
  | time us => simp only at hn; subst hn; simp [midTime, Act.ends, Act.begins]; omega
  | done us => simp only at hn; subst hn; simp [midTime, Act.ends, Act.begins]; omega
  | add c =>
    simp only at hn
    have e3 : midTime (.add c :: r) = 0 := by cases r <;> rfl
    simp [midTime_of hn.1, e3, Act.ends, Act.begins]
  | push b =>
    simp only at hn
    have e3 : midTime (.push b :: r) = 0 := by cases r <;> rfl
    simp [midTime_of hn, e3, Act.ends, Act.begins]
  | park =>
    simp only at hn
    have e3 : midTime (.park :: r) = 0 := by cases r <;> rfl
    simp [midTime_of hn, e3, Act.ends, Act.begins]

theorem avg_step {s s' : St} (hi : Inv s) (h : s.starting = [] → s.overlap = false → s.torn = false → Avg s)
    (st : Step s s') : s'.starting = [] → s'.overlap = false → s'.torn = false → Avg s' := by
  intro h1 h2 h3
  cases st with
  | issue m us hm hs =>
    obtain ⟨q, t, d⟩ := h h1 h2 h3
    exact ⟨by simpa [mids_append, mids_prog] using q, by simpa [mids_append, mids_prog] using t, d⟩
  | again m us hm hs w hw =>
    obtain ⟨q, t, d⟩ := h h1 h2 h3
    exact ⟨by simpa [mids_append, mids_prog] using q, by simpa [mids_append, mids_prog] using t, d⟩
  | giveUp m hm hs w hw =>
    obtain ⟨q, t, d⟩ := h h1 h2 h3
    exact ⟨by simpa [mids_append, mids_prog] using q, by simpa [mids_append, mids_prog] using t, d⟩
  | act pre post a r ht =>
    have hm := mids_act (hi.rest (a :: r) (by rw [ht]; simp)) pre post
    rw [← ht, List.append_assoc] at hm
    cases a with
    | add c =>
      obtain ⟨q, t, d⟩ := h h1 h2 h3
      simp only [Nat.add_zero, Act.ends, Act.begins] at hm
      obtain ⟨-, c1, c2⟩ := (rest_next (hi.rest (.add c :: r) (by rw [ht]; simp))).1
      exact ⟨by simpa [perform, hm, upd, c1.symm, c2.symm] using q, by simpa [perform, hm, upd, c1.symm, c2.symm] using t, d⟩
    | push e =>
      obtain ⟨q, t, d⟩ := h h1 h2 h3
      simp only [Nat.add_zero, Act.ends, Act.begins] at hm
      exact ⟨by simpa [perform, hm] using q, by simpa [perform, hm] using t, d⟩
    | park =>
      obtain ⟨q, t, d⟩ := h h1 h2 h3
      simp only [Nat.add_zero, Act.ends, Act.begins] at hm
      exact ⟨by simpa [perform, hm] using q, by simpa [perform, hm] using t, d⟩
    | time us =>
      simp only [perform, Bool.or_eq_false_iff, decide_eq_false_iff_not] at h1 h2 h3
      obtain ⟨q, t, d⟩ := h h1 h2 h3.1
      refine ⟨fun hm' => ?_, fun hm' => absurd hm' h3.2, d⟩
      obtain ⟨q1, q2⟩ := q h3.2
      simp [perform, upd, q1, q2, Act.ends, Act.begins] at hm ⊢
      omega
    | done us =>
      simp only [perform, Bool.or_eq_false_iff, decide_eq_false_iff_not] at h1 h2 h3
      obtain ⟨q, t, d⟩ := h h1 h2 h3.1
      refine ⟨fun hm' => ?_, fun hm' => absurd hm' h3.2, d⟩
      obtain ⟨q1, q2⟩ := q h3.2
      simp [perform, upd, q1, q2, Act.ends, Act.begins] at hm ⊢
      omega
  | report hm =>
    obtain ⟨q, t, d⟩ := h h1 h2 h3
    refine ⟨fun _ => q (by rw [hm]; simp), fun h => ?_, d⟩
    simp [order] at h
  | take c r hm =>
    simp only [take, Bool.or_eq_false_iff] at h1 h2 h3
    obtain ⟨q, t, d⟩ := h h1 h2.1 h3.1
    have hsuf := hi.mon
    rw [hm] at hsuf
    by_cases hh : c = .handled
    · subst hh
      have hr : r = [.time] := by
        simp only [order, List.suffix_cons_iff, List.suffix_nil, List.cons.injEq, reduceCtorEq, false_and, true_and,
          false_or, or_false] at hsuf
        exact hsuf
      subst hr
      obtain ⟨q1, q2⟩ := q (by rw [hm]; simp)
      have hz : mids s.tasks = 0 := mids_any (by simpa using h3.2)
      refine ⟨fun hx => absurd rfl hx, fun _ => ?_, by simpa [take] using d⟩
      simp [take, upd, q1, q2, hz]
    · by_cases htm : c = .time
      · subst htm
        have hr : r = [] := by
          simp only [order, List.suffix_cons_iff, List.suffix_nil, List.cons.injEq, reduceCtorEq, false_and, true_and,
            false_or, or_false] at hsuf
          exact hsuf
        subst hr
        obtain ⟨t1, t2, t3, t4, t5⟩ := t hm
        refine ⟨fun _ => ?_, fun hx => by simp [take] at hx, ?_⟩
        · simp [take, upd, t1, t2, t5]
        · intro p hp
          simp only [take, if_true, List.mem_append, List.mem_singleton] at hp
          rcases hp with hp | hp
          · exact d p hp
          · subst hp; simp [t3, t4]
      · have hne : s.mon ≠ [.time] := by rw [hm]; simp [htm]
        obtain ⟨q1, q2⟩ := q hne
        have hr : r ≠ [.time] := by
          rintro rfl
          cases c <;> simp [order, List.suffix_cons_iff] at hsuf hh htm
        refine ⟨fun _ => ?_, fun hx => absurd hx hr, by simpa [take, htm] using d⟩
        simp [take, upd, hh, htm, Ne.symm hh, Ne.symm htm, q1, q2]
  | start hs ht hw => simp [begin, zeroed] at h1
  | zero c r hz =>
    have hne : s.starting ≠ [] := by rw [hz]; simp
    obtain ⟨a, b, d, e, f, g⟩ := hi.start hne
    have hr : r = [] := h1
    subst hr
    obtain ⟨f1, f2, f3, f4⟩ := f h2
    have hv : ∀ x, upd s.val c 0 x = 0 := by
      intro x
      by_cases hxc : x = c
      · simp [upd, hxc]
      · simp [upd, hxc, g x (by rw [hz]; simp [hxc])]
    refine ⟨fun _ => ⟨by simp [hv, f1], by simp [hv, f1, a, mids]⟩, fun h => absurd h (f4 h3), by simp [f3]⟩

theorem avg_reach {s : St} (h : Reach s) :
    s.starting = [] → s.overlap = false → s.torn = false → Avg s := by
  induction h with
  | init => exact fun _ _ _ => ⟨fun _ => ⟨rfl, rfl⟩, fun h => by simp [St.init] at h, by simp [St.init]⟩
  | step s s' hr st ih => exact avg_step (inv_reach hr) ih st

theorem int32_small {v : Nat} (h : v < 2147483648) : int32 v = v := by
  have h1 : v % 4294967296 = v := Nat.mod_eq_of_lt (by omega)
  unfold int32
  rw [h1, if_pos h]

theorem average_small {n t : Nat} (hn : n < 2147483648) (ht : t < 2147483648) : average n t = t / n := by
  unfold average
  rw [int32_small hn, int32_small ht]
  by_cases h0 : n = 0
  · subst h0; simp
  · rw [if_pos (by omega)]
    have e : (t : Int).tdiv (n : Int) = ((t / n : Nat) : Int) := by
      rw [Int.tdiv_eq_ediv_of_nonneg (by omega)]; rfl
    have hlt : t / n ≤ t := Nat.div_le_self t n
    rw [e]
    unfold u64
    generalize t / n = k at hlt
    omega

theorem sum_bounds (l : List Nat) (a b : Nat) (h : ∀ x ∈ l, a ≤ x ∧ x ≤ b) :
    l.length * a ≤ l.sum ∧ l.sum ≤ l.length * b := by
  induction l with
  | nil => simp
  | cons x l ih =>
    obtain ⟨i1, i2⟩ := ih (fun y hy => h y (by simp [hy]))
    obtain ⟨x1, x2⟩ := h x (by simp)
    simp only [List.length_cons, List.sum_cons, Nat.add_mul, Nat.one_mul]
    omega

/-- **C95 (average, partial)** If no report of the run fell between the two additions of a request, or between
`start` and its end: every reported average is the (rounded down) mean of the response times of the attempts
finished since the previous report, and lies between any bounds of these, as long as their number and their sum are
below 2^31. Missing: the other reports, see the counterexamples. -/
theorem C95_average_partial (s : St) (h : Reach s) (hs : s.starting = []) (ho : s.overlap = false)
    (ht : s.torn = false) (p : Nat × List Nat) (hp : p ∈ s.avgs) (hn : p.2.length < 2147483648)
    (hsum : p.2.sum < 2147483648) :
    p.1 = p.2.sum / p.2.length ∧
    ∀ a b, p.2 ≠ [] → (∀ x ∈ p.2, a ≤ x ∧ x ≤ b) → a ≤ p.1 ∧ p.1 ≤ b := by
  have e : p.1 = p.2.sum / p.2.length := by
    rw [(avg_reach h hs ho ht).done p hp, average_small hn hsum]
  refine ⟨e, fun a b hne hb => ?_⟩
  obtain ⟨b1, b2⟩ := sum_bounds p.2 a b hb
  have hpos : 0 < p.2.length := List.length_pos_iff.2 hne
  rw [e]
  constructor
  · rw [Nat.le_div_iff_mul_le hpos, Nat.mul_comm]; exact b1
  · rw [Nat.div_le_iff_le_mul_add_pred hpos]; omega

/-! ### Concrete executions -/

/-- Moves of an execution written down. -/
inductive Mv where
  | issue (m : Met) (us : Nat)
  | again (m : Met) (us : Nat)
  | giveUp (m : Met)
  | act (i : Nat)      -- the thread of the i-th task
  | report
  | take
  | start
  | zero

def mv (s : St) : Mv → Option St
  | .issue m us =>
    if m.pool = true ∧ s.starting = [] then
      some { s with received := s.received + 1, tasks := s.tasks ++ [prog us m] }
    else none
  | .again m us =>
    match s.waiting with
    | w + 1 =>
      if m.pool = true ∧ s.starting = [] then some { s with waiting := w, tasks := s.tasks ++ [prog us m] } else none
    | 0 => none
  | .giveUp m =>
    match s.waiting with
    | w + 1 =>
      if m.pool = false ∧ s.starting = [] then some { s with waiting := w, tasks := s.tasks ++ [prog 0 m] } else none
    | 0 => none
  | .act i =>
    match s.tasks[i]? with
    | some (a :: r) => some (perform s (s.tasks.take i ++ keep r ++ s.tasks.drop (i + 1)) a)
    | _ => none
  | .report => if s.mon = [] then some { s with mon := order } else none
  | .take =>
    match s.mon with
    | c :: r => some (take s c r)
    | [] => none
  | .start => if s.starting = [] ∧ s.tasks = [] ∧ s.waiting = 0 then some (begin s) else none
  | .zero =>
    match s.starting with
    | c :: r => some { s with val := upd s.val c 0, starting := r }
    | [] => none

theorem mv_step {s s' : St} {m : Mv} (h : mv s m = some s') : Step s s' := by
  cases m with
  | issue m us =>
    simp only [mv] at h
    split at h
    · next hc => cases h; exact .issue s m us hc.1 hc.2
    · cases h
  | again m us =>
    simp only [mv] at h
    split at h
    · next w hw =>
      split at h
      · next hc => cases h; exact .again s m us hc.1 hc.2 w hw
      · cases h
    · cases h
  | giveUp m =>
    simp only [mv] at h
    split at h
    · next w hw =>
      split at h
      · next hc => cases h; exact .giveUp s m hc.1 hc.2 w hw
      · cases h
    · cases h
  | act i =>
    simp only [mv] at h
    split at h
    · next a r hi =>
      cases h
      refine .act s (s.tasks.take i) (s.tasks.drop (i + 1)) a r ?_
      obtain ⟨hlt, he⟩ := List.getElem?_eq_some_iff.1 hi
      rw [← he, ← List.drop_eq_getElem_cons hlt, List.take_append_drop]
    · cases h
  | report =>
    simp only [mv] at h
    split at h
    · next hc => cases h; exact .report s hc
    · cases h
  | take =>
    simp only [mv] at h
    split at h
    · next c r hc => cases h; exact .take s c r hc
    · cases h
  | start =>
    simp only [mv] at h
    split at h
    · next hc => cases h; exact .start s hc.1 hc.2.1 hc.2.2
    · cases h
  | zero =>
    simp only [mv] at h
    split at h
    · next c r hc => cases h; exact .zero s c r hc
    · cases h

def moves (s : St) : List Mv → Option St
  | [] => some s
  | m :: ms => (mv s m).bind (fun s' => moves s' ms)

theorem reach_moves {s s' : St} (hs : Reach s) {ms : List Mv} (h : moves s ms = some s') : Reach s' := by
  induction ms generalizing s with
  | nil => cases h; exact hs
  | cons m ms ih =>
    simp only [moves] at h
    cases hm : mv s m with
    | none => rw [hm] at h; cases h
    | some t => rw [hm] at h; exact ih (.step s t hs (mv_step hm)) h

/-- `start` from beginning to end, a report, and an attempt performed to its end. -/
def doStart : List Mv := .start :: List.replicate 8 .zero
def doReport : List Mv := .report :: List.replicate 8 .take
def finish (n : Nat) : List Mv := List.replicate n (.act 0)

/-- What an observer sees, decidable. -/
structure View where
  received : Nat
  frags : List Bool
  log : List (Ctr × Nat)
  avgs : List (Nat × List Nat)
  overlap : Bool
  torn : Bool
  started : Bool
  idle : Bool
  deriving DecidableEq

def view (s : St) : View :=
  ⟨s.received, s.frags, s.log, s.avgs, s.overlap, s.torn, decide (s.starting = []), decide (s.tasks = [])⟩

theorem moves_view {ms : List Mv} {v} (h : (moves St.init ms).map view = some v) : ∃ s, Reach s ∧ view s = v := by
  cases hm : moves St.init ms with
  | none => rw [hm] at h; cases h
  | some s => rw [hm] at h; cases h; exact ⟨s, reach_moves .init hm, rfl⟩

/-- A run with a found and a timed out request and two reports: everything is accounted for. -/
def demo : List Mv :=
  doStart ++ [.issue .found 40, .issue (.late true) 20] ++ finish 8 ++ doReport ++ [.giveUp .timedOut] ++ finish 3 ++
    doReport

theorem demo_run : ∃ s, Reach s ∧ s.starting = [] ∧ s.overlap = false ∧ s.torn = false ∧ s.received = 2 ∧
    s.tasks = [] ∧ s.frags = [false, true] ∧ s.avgs = [(30, [40, 20]), (0, [])] ∧
    total .found s.log = 1 ∧ total .bad s.log = 1 ∧ total .timedOut s.log = 1 := by
  obtain ⟨s, hr, hv⟩ := moves_view (ms := demo) (v := ⟨2, [false, true],
    [(.found, 1), (.bad, 0), (.oldWindow, 0), (.delayed, 1), (.uncategorized, 0), (.timedOut, 0), (.handled, 2), (.time, 60),
     (.found, 0), (.bad, 1), (.oldWindow, 0), (.delayed, 0), (.uncategorized, 0), (.timedOut, 1), (.handled, 0), (.time, 0)],
    [(30, [40, 20]), (0, [])], false, false, true, true⟩) (by decide +kernel)
  simp only [view, View.mk.injEq, decide_eq_true_eq] at hv
  obtain ⟨v1, v2, v3, v4, v5, v6, v7, v8⟩ := hv
  refine ⟨s, hr, v7, v5, v6, v1, v8, v2, v4, ?_, ?_, ?_⟩ <;> rw [v3] <;> rfl

/-- The hypotheses of `C95_counts_partial` and `C95_average_partial` hold there. -/
example : ∃ s, Reach s ∧ counted s .found + counted s .bad + s.waiting = 2 ∧ (30, [40, 20]) ∈ s.avgs := by
  obtain ⟨s, hr, h1, h2, h3, h4, h5, h6, h7, -⟩ := demo_run
  refine ⟨s, hr, ?_, by rw [h7]; simp⟩
  rw [((C95_counts_partial s hr h1 h2 (by omega)).2.2 h5).2.2.1, h4]

example : ∃ s, Reach s ∧ ∀ p ∈ s.avgs, p.1 = p.2.sum / p.2.length := by
  obtain ⟨s, hr, h1, h2, h3, h4, h5, h6, h7, -⟩ := demo_run
  refine ⟨s, hr, fun p hp => (C95_average_partial s hr h1 h2 h3 p hp ?_ ?_).1⟩ <;>
    (rw [h7] at hp; simp at hp; rcases hp with rfl | rfl <;> decide)

/-- **C95 is false of the code (1), average**: a report that falls between the two additions of a request. Of the
two requests one took 5 µs and the other 1000 µs; the reported average is 1005 µs, then 0. -/
theorem C95_average_counterexample :
    ∃ s, Reach s ∧ s.starting = [] ∧ s.overlap = false ∧ s.tasks = [] ∧ s.received = 2 ∧
      s.avgs = [(1005, [5]), (0, [1000])] := by
  obtain ⟨s, hr, hv⟩ := moves_view (ms := doStart ++ [.issue .found 1000] ++ finish 3 ++ [.issue .found 5] ++
      List.replicate 4 (.act 1) ++ doReport ++ finish 1 ++ doReport) (v := ⟨2, [false, false],
    [(.found, 2), (.bad, 0), (.oldWindow, 0), (.delayed, 0), (.uncategorized, 0), (.timedOut, 0), (.handled, 1), (.time, 1005),
     (.found, 0), (.bad, 0), (.oldWindow, 0), (.delayed, 0), (.uncategorized, 0), (.timedOut, 0), (.handled, 1), (.time, 0)],
    [(1005, [5]), (0, [1000])], false, true, true, true⟩) (by decide +kernel)
  simp only [view, View.mk.injEq, decide_eq_true_eq] at hv
  obtain ⟨v1, v2, v3, v4, v5, v6, v7, v8⟩ := hv
  exact ⟨s, hr, v7, v5, v8, v1, v4⟩

/-- **C95 is false of the code (2), long waits**: response times that sum up to 2^31 µs between two reports, here
four of 536.9 s (requests wait for a cleanup or for the fragment queue), are reported as an average of
18446744073172680704 µs. -/
theorem C95_average_overflow_counterexample :
    ∃ s, Reach s ∧ s.starting = [] ∧ s.overlap = false ∧ s.torn = false ∧ s.tasks = [] ∧ s.received = 4 ∧
      s.avgs = [(18446744073172680704, [536870912, 536870912, 536870912, 536870912])] := by
  obtain ⟨s, hr, hv⟩ := moves_view (ms := doStart ++ List.replicate 4 (.issue .found 536870912) ++ finish 16 ++ doReport)
    (v := ⟨4, [false, false, false, false],
    [(.found, 4), (.bad, 0), (.oldWindow, 0), (.delayed, 0), (.uncategorized, 0), (.timedOut, 0), (.handled, 4),
     (.time, 18446744071562067968)],
    [(18446744073172680704, [536870912, 536870912, 536870912, 536870912])], false, false, true, true⟩) (by decide +kernel)
  simp only [view, View.mk.injEq, decide_eq_true_eq] at hv
  obtain ⟨v1, v2, v3, v4, v5, v6, v7, v8⟩ := hv
  exact ⟨s, hr, v7, v5, v6, v8, v1, v4⟩

/-- **C95 is false of the code (3), start**: whatever was counted and not reported when the next run starts is never
reported; and a report that overlaps `start` shows requests of the previous run as those of the new one. -/
theorem C95_start_counterexample :
    (∃ s s', Reach s ∧ s.received = 1 ∧ s.frags = [false] ∧ s.log = [] ∧ moves s doStart = some s' ∧
      ∀ c, s'.val c = 0) ∧
    (∃ s, Reach s ∧ s.starting = [] ∧ s.received = 0 ∧ total .found s.log = 1) := by
  constructor
  · obtain ⟨s, hs⟩ : ∃ s, moves St.init (doStart ++ [.issue .found 40] ++ finish 4) = some s := ⟨_, rfl⟩
    have hv : (moves St.init (doStart ++ [.issue .found 40] ++ finish 4)).map view =
      some ⟨1, [false], [], [], false, false, true, true⟩ := by decide +kernel
    have h0 : ((moves St.init (doStart ++ [.issue .found 40] ++ finish 4)).bind (fun s => (moves s doStart).map
      (fun s' => zeroed.map s'.val))) = some [0, 0, 0, 0, 0, 0, 0, 0] := by decide +kernel
    rw [hs] at hv h0
    simp only [Option.map_some, Option.some.injEq, view, View.mk.injEq] at hv
    simp only [Option.bind_some] at h0
    cases hm : moves s doStart with
    | none => rw [hm] at h0; cases h0
    | some s' =>
      rw [hm] at h0
      simp only [Option.map_some, Option.some.injEq, zeroed, List.map_cons, List.map_nil, List.cons.injEq] at h0
      refine ⟨s, s', reach_moves .init hs, hv.1, hv.2.1, hv.2.2.1, hm, fun c => ?_⟩
      cases c <;> simp [h0]
  · obtain ⟨s, hr, hv⟩ := moves_view (ms := doStart ++ [.issue .found 40] ++ finish 4 ++ [.start, .report, .take] ++
        List.replicate 8 .zero) (v := ⟨0, [], [(.found, 1)], [], true, false, true, true⟩) (by decide +kernel)
    simp only [view, View.mk.injEq, decide_eq_true_eq] at hv
    obtain ⟨v1, v2, v3, v4, v5, v6, v7, v8⟩ := hv
    exact ⟨s, hr, v7, v1, by rw [v3]; rfl⟩

/-! ### What a request meets -/

/-- Specification: what a data request meets, given the oldest and newest stored timestamps. -/
def meets (bounds : Option (Nat × Nat)) (running : Bool) (b e : Nat) : Met :=
  match bounds with
  | none => .empty
  | some (oldest, newest) =>
    if b < oldest then .gone else if e ≤ newest then .found else .late running

/-- The counters an attempt adds to. -/
def addAll (c : Counters) (l : List Act) : Counters :=
  ⟨c.found + l.count (.add .found), c.bad + l.count (.add .bad), c.oldWindow + l.count (.add .oldWindow),
    c.delayed + l.count (.add .delayed), c.uncategorized + l.count (.add .uncategorized),
    c.timedOut + l.count (.add .timedOut)⟩

/-- **C95 and C12** The additions of an attempt are those of the data request (C12), and it ends with a fragment,
with or without error bit, or among the waiting requests, as C12 says. -/
theorem C95_attempt (bounds : Option (Nat × Nat)) (running : Bool) (b e us : Nat) (c : Counters) :
    countersAfter bounds running b e c = addAll c (prog us (meets bounds running b e)) ∧
    (meets bounds running b e).pool = true ∧
    (classify bounds running b e = .found ↔ Act.push false ∈ prog us (meets bounds running b e)) ∧
    (classify bounds running b e = .notFound ↔ Act.push true ∈ prog us (meets bounds running b e)) ∧
    (classify bounds running b e = .notYet ↔ Act.park ∈ prog us (meets bounds running b e)) := by
  unfold countersAfter classify meets
  cases bounds with
  | none => simp [prog, addAll, Met.pool]
  | some p =>
    obtain ⟨o, n⟩ := p
    by_cases h1 : b < o
    · simp [h1, prog, addAll, Met.pool]
    · by_cases h2 : e ≤ n
      · simp [h1, h2, prog, addAll, Met.pool]
      · cases running <;> simp [h1, h2, prog, addAll, Met.pool]

/-- **C95** The attempts whose response time is counted are those of the pool; giving up a waiting request is none. -/
theorem C95_pool (us : Nat) (m : Met) : m.pool = true ↔ Act.time us ∈ prog us m ∧ Act.done us ∈ prog us m := by
  cases m with
  | late r => cases r <;> simp [Met.pool, prog]
  | _ => simp [Met.pool, prog]

/-- A request for a window that is not complete yet. -/
example : meets (some (1000, 2000)) true 1500 2500 = .late true := by decide

end Verif.MonReq
