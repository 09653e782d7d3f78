import Verif.MonTpModel
import Verif.TpHandlerProps
/- Property C96: the statistics on trigger primitives in the monitoring reports. -/
namespace Verif.MonTp
open Verif.Search (u64)
open Verif.TpHandler (Cfg PickSpec)

variable {α : Type}

/-! ### Specification -/

/-- Sum of the values of one counter over all reports. -/
def total (c : Ctr) (log : List (Ctr × Int)) : Int := ((log.filter (fun p => decide (p.1 = c))).map (·.2)).sum

/-- Reported so far, plus what the next report will show. -/
def counted (s : St α) (c : Ctr) : Int := total c s.log + shown c (s.val c)

/-- The TP was found too late: its start time plus the timeout is not after the superchunk it was found in. -/
def tooOld (ts : α → Nat) (c : Cfg) (p : α × Nat) : Bool := decide (ts p.1 + c.timeout ≤ p.2)

/-! ### Invariant -/

def rtotal (c : Ctr) (log : List (Ctr × Nat)) : Nat := ((log.filter (fun p => decide (p.1 = c))).map (·.2)).sum

theorem rtotal_append (c : Ctr) (l m : List (Ctr × Nat)) : rtotal c (l ++ m) = rtotal c l + rtotal c m := by
  simp [rtotal]

theorem rtotal_single (c d : Ctr) (v : Nat) : rtotal c [(d, v)] = if d = c then v else 0 := by
  by_cases h : d = c <;> simp [rtotal, h]

/-- TPs of the superchunk being processed that were not looked at yet. -/
def Pc.todo : Pc α → List α
  | .adding _ l _ => l
  | .drop _ l _ => l
  | _ => []

/-- TPs of the superchunk being processed that are not in the number of hits yet. -/
def Pc.uncounted : Pc α → Nat
  | .adding _ l n => l.length + n
  | .drop _ l n => l.length + n
  | .count _ n => n
  | _ => 0

/-- Accesses to come that count something which has happened. -/
def Pc.owes (c : Ctr) : Pc α → Nat
  | .drop _ _ _ => if c = .dropped then 1 else 0
  | .pushed _ _ => if c = .sent then 1 else 0
  | .pushedSet => if c = .sets then 1 else 0
  | _ => 0

def Pc.now : Pc α → Nat
  | .adding n _ _ => n
  | .drop n _ _ => n
  | _ => 0

/-- The decision of the code, TPHandler.hpp l.40. -/
def late (ts : α → Nat) (c : Cfg) (p : α × Nat) : Bool := decide (u64 (ts p.1 + c.timeout) ≤ p.2)

structure Counts (ts : α → Nat) (c : Cfg) (s : St α) (raw : List (Ctr × Nat)) : Prop where
  sent : rtotal .sent raw + s.val .sent + s.pc.owes .sent = s.tpq.length
  sets : rtotal .sets raw + s.val .sets + s.pc.owes .sets = s.setq.length
  hits : rtotal .hits raw + s.val .hits + s.pc.uncounted = s.found.length
  dropped : rtotal .dropped raw + s.val .dropped + s.pc.owes .dropped +
    (s.pc.todo.map (·, s.pc.now)).countP (late ts c) = s.found.countP (late ts c)
  all : rtotal .dropped raw + s.val .dropped + s.pc.owes .dropped + s.pc.todo.length + s.tpq.length +
    s.refused.length + s.buf.length = s.found.length

def shownP (p : Ctr × Nat) : Ctr × Int := (p.1, shown p.1 p.2)

structure Inv (ts : α → Nat) (c : Cfg) (s : St α) : Prop where
  start : s.starting ≠ [] → s.pc = .idle ∧ s.found = [] ∧ s.tpq = [] ∧ s.refused = [] ∧ s.setq = [] ∧ s.buf = [] ∧
    (s.overlap = false → s.log = []) ∧ ∀ d, d ∉ s.starting → s.val d = 0
  run : s.starting = [] → s.overlap = false → ∃ raw, s.log = raw.map shownP ∧ Counts ts c s raw

theorem pick_length {ts : α → Nat} {pick : List α → Option (α × List α)} (hp : PickSpec ts pick) {buf : List α}
    {endT : Nat} {a : α} {r : List α} (h : inWindow ts pick buf endT = some (a, r)) : buf.length = r.length + 1 := by
  unfold inWindow at h
  cases hb : pick buf with
  | none => rw [hb] at h; cases h
  | some q =>
    obtain ⟨b, r'⟩ := q
    rw [hb] at h
    dsimp only at h
    split at h
    · cases h
      have := ((hp buf).2 a r hb).1.length_eq
      simpa using this
    · cases h

theorem inv_step {ts : α → Nat} {pick : List α → Option (α × List α)} {c : Cfg} (hp : PickSpec ts pick) {s s' : St α}
    (h : Inv ts c s) (st : Step ts pick c s s') : Inv ts c s' := by
  obtain ⟨is, ir⟩ := h
  have idle_of : s.pc ≠ .idle → s.starting = [] := by
    intro hne
    cases hs : s.starting with
    | nil => rfl
    | cons d r => exact absurd (is (by rw [hs]; simp)).1 hne
  cases st with
  | frame now tps h hs =>
    refine ⟨fun hx => absurd hs hx, fun _ ho => ?_⟩
    obtain ⟨raw, hl, h1, h2, h3, h4, h5⟩ := ir hs ho
    refine ⟨raw, hl, ?_⟩
    rw [h] at h1 h2 h3 h4 h5
    refine ⟨?_, ?_, ?_, ?_, ?_⟩ <;>
      simp [Pc.owes, Pc.todo, Pc.uncounted, Pc.now] at h1 h2 h3 h4 h5 ⊢ <;> omega
  | add now a r n h =>
    have hs := idle_of (by rw [h]; simp)
    by_cases hc : u64 (ts a + c.timeout) > now
    · have hd : late ts c (a, now) = false := by simp [late]; omega
      refine ⟨fun hx => absurd (by simpa [add, hc] using hs) hx, fun _ ho => ?_⟩
      obtain ⟨raw, hl, h1, h2, h3, h4, h5⟩ := ir hs (by simpa [add, hc] using ho)
      refine ⟨raw, by simpa [add, hc] using hl, ?_⟩
      rw [h] at h1 h2 h3 h4 h5
      refine ⟨?_, ?_, ?_, ?_, ?_⟩ <;>
        simp [add, hc, Pc.owes, Pc.todo, Pc.uncounted, Pc.now, hd] at h1 h2 h3 h4 h5 ⊢ <;> omega
    · have hd : late ts c (a, now) = true := by simp [late]; omega
      refine ⟨fun hx => absurd (by simpa [add, hc] using hs) hx, fun _ ho => ?_⟩
      obtain ⟨raw, hl, h1, h2, h3, h4, h5⟩ := ir hs (by simpa [add, hc] using ho)
      refine ⟨raw, by simpa [add, hc] using hl, ?_⟩
      rw [h] at h1 h2 h3 h4 h5
      refine ⟨?_, ?_, ?_, ?_, ?_⟩ <;>
        simp [add, hc, Pc.owes, Pc.todo, Pc.uncounted, Pc.now, hd] at h1 h2 h3 h4 h5 ⊢ <;> omega
  | drop now r n h =>
    have hs := idle_of (by rw [h]; simp)
    refine ⟨fun hx => absurd hs hx, fun _ ho => ?_⟩
    obtain ⟨raw, hl, h1, h2, h3, h4, h5⟩ := ir hs ho
    refine ⟨raw, hl, ?_⟩
    rw [h] at h1 h2 h3 h4 h5
    refine ⟨?_, ?_, ?_, ?_, ?_⟩ <;>
      simp [Pc.owes, Pc.todo, Pc.uncounted, Pc.now, upd] at h1 h2 h3 h4 h5 ⊢ <;> omega
  | added now n h =>
    have hs := idle_of (by rw [h]; simp)
    refine ⟨fun hx => absurd hs hx, fun _ ho => ?_⟩
    obtain ⟨raw, hl, h1, h2, h3, h4, h5⟩ := ir hs ho
    refine ⟨raw, hl, ?_⟩
    rw [h] at h1 h2 h3 h4 h5
    refine ⟨?_, ?_, ?_, ?_, ?_⟩ <;>
      simp [Pc.owes, Pc.todo, Pc.uncounted, Pc.now] at h1 h2 h3 h4 h5 ⊢ <;> omega
  | count now n h =>
    have hs := idle_of (by rw [h]; simp)
    refine ⟨fun hx => absurd hs hx, fun _ ho => ?_⟩
    obtain ⟨raw, hl, h1, h2, h3, h4, h5⟩ := ir hs ho
    refine ⟨raw, hl, ?_⟩
    rw [h] at h1 h2 h3 h4 h5
    refine ⟨?_, ?_, ?_, ?_, ?_⟩ <;>
      simp [Pc.owes, Pc.todo, Pc.uncounted, Pc.now, upd] at h1 h2 h3 h4 h5 ⊢ <;> omega
  | check now h hw =>
    have hs := idle_of (by rw [h]; simp)
    have key : ∃ pc', check ts pick c s now = { s with pc := pc' } ∧ (pc' = .idle ∨ ∃ e, pc' = .loop e []) := by
      unfold check
      cases pick s.buf with
      | none => exact ⟨_, rfl, .inl rfl⟩
      | some q =>
        dsimp only
        split
        · exact ⟨_, rfl, .inr ⟨_, rfl⟩⟩
        · exact ⟨_, rfl, .inl rfl⟩
    obtain ⟨pc', he, hpc⟩ := key
    rw [he]
    refine ⟨fun hx => absurd hs hx, fun _ ho => ?_⟩
    obtain ⟨raw, hl, h1, h2, h3, h4, h5⟩ := ir hs ho
    refine ⟨raw, hl, ?_⟩
    rw [h] at h1 h2 h3 h4 h5
    rcases hpc with rfl | ⟨e, rfl⟩ <;> refine ⟨?_, ?_, ?_, ?_, ?_⟩ <;>
      simp [Pc.owes, Pc.todo, Pc.uncounted, Pc.now] at h1 h2 h3 h4 h5 ⊢ <;> omega
  | pushTp endT set a r ok h hw =>
    have hs := idle_of (by rw [h]; simp)
    have hlen := pick_length hp hw
    cases ok with
    | true =>
      refine ⟨fun hx => absurd hs hx, fun _ ho => ?_⟩
      obtain ⟨raw, hl, h1, h2, h3, h4, h5⟩ := ir hs ho
      refine ⟨raw, hl, ?_⟩
      rw [h] at h1 h2 h3 h4 h5
      refine ⟨?_, ?_, ?_, ?_, ?_⟩ <;>
        simp [pushTp, Pc.owes, Pc.todo, Pc.uncounted, Pc.now] at h1 h2 h3 h4 h5 ⊢ <;> omega
    | false =>
      refine ⟨fun hx => absurd hs hx, fun _ ho => ?_⟩
      obtain ⟨raw, hl, h1, h2, h3, h4, h5⟩ := ir hs ho
      refine ⟨raw, hl, ?_⟩
      rw [h] at h1 h2 h3 h4 h5
      refine ⟨?_, ?_, ?_, ?_, ?_⟩ <;>
        simp [pushTp, Pc.owes, Pc.todo, Pc.uncounted, Pc.now] at h1 h2 h3 h4 h5 ⊢ <;> omega
  | sent endT set h =>
    have hs := idle_of (by rw [h]; simp)
    refine ⟨fun hx => absurd hs hx, fun _ ho => ?_⟩
    obtain ⟨raw, hl, h1, h2, h3, h4, h5⟩ := ir hs ho
    refine ⟨raw, hl, ?_⟩
    rw [h] at h1 h2 h3 h4 h5
    refine ⟨?_, ?_, ?_, ?_, ?_⟩ <;>
      simp [Pc.owes, Pc.todo, Pc.uncounted, Pc.now, upd] at h1 h2 h3 h4 h5 ⊢ <;> omega
  | pushSet endT set ok h hw =>
    have hs := idle_of (by rw [h]; simp)
    cases ok with
    | true =>
      refine ⟨fun hx => absurd hs hx, fun _ ho => ?_⟩
      obtain ⟨raw, hl, h1, h2, h3, h4, h5⟩ := ir hs ho
      refine ⟨raw, hl, ?_⟩
      rw [h] at h1 h2 h3 h4 h5
      refine ⟨?_, ?_, ?_, ?_, ?_⟩ <;>
        simp [pushSet, Pc.owes, Pc.todo, Pc.uncounted, Pc.now] at h1 h2 h3 h4 h5 ⊢ <;> omega
    | false =>
      refine ⟨fun hx => absurd hs hx, fun _ ho => ?_⟩
      obtain ⟨raw, hl, h1, h2, h3, h4, h5⟩ := ir hs ho
      refine ⟨raw, hl, ?_⟩
      rw [h] at h1 h2 h3 h4 h5
      refine ⟨?_, ?_, ?_, ?_, ?_⟩ <;>
        simp [pushSet, Pc.owes, Pc.todo, Pc.uncounted, Pc.now] at h1 h2 h3 h4 h5 ⊢ <;> omega
  | sentSet h =>
    have hs := idle_of (by rw [h]; simp)
    refine ⟨fun hx => absurd hs hx, fun _ ho => ?_⟩
    obtain ⟨raw, hl, h1, h2, h3, h4, h5⟩ := ir hs ho
    refine ⟨raw, hl, ?_⟩
    rw [h] at h1 h2 h3 h4 h5
    refine ⟨?_, ?_, ?_, ?_, ?_⟩ <;>
      simp [Pc.owes, Pc.todo, Pc.uncounted, Pc.now, upd] at h1 h2 h3 h4 h5 ⊢ <;> omega
  | report h =>
    refine ⟨is, fun hs ho => ?_⟩
    obtain ⟨raw, hl, h1, h2, h3, h4, h5⟩ := ir hs ho
    exact ⟨raw, hl, h1, h2, h3, h4, h5⟩
  | take d r h =>
    refine ⟨fun hx => ?_, fun hs ho => ?_⟩
    · obtain ⟨a1, a2, a3, a4, a5, a6, a7, a8⟩ := is hx
      refine ⟨a1, a2, a3, a4, a5, a6, fun ho => ?_, fun e he => ?_⟩
      · have hx' : s.starting ≠ [] := hx
        simp [take, hx'] at ho
      · have := a8 e he
        simp only [take, upd]
        split
        · rfl
        · exact this
    · have ho' : s.overlap = false := by simp [take] at ho; exact ho.1
      obtain ⟨raw, hl, h1, h2, h3, h4, h5⟩ := ir hs ho'
      refine ⟨raw ++ [(d, s.val d)], by simp [take, hl, shownP], ?_⟩
      cases d <;> refine ⟨?_, ?_, ?_, ?_, ?_⟩ <;>
        simp [take, upd, rtotal_append, rtotal_single] at h1 h2 h3 h4 h5 ⊢ <;> omega
  | start hs h =>
    refine ⟨fun _ => ⟨h, rfl, rfl, rfl, rfl, rfl, fun _ => rfl, fun d hd => ?_⟩, fun hx => ?_⟩
    · cases d <;> simp [begin, zeroed] at hd
    · simp [begin, zeroed] at hx
  | zero d r h =>
    have hne : s.starting ≠ [] := by rw [h]; simp
    obtain ⟨a1, a2, a3, a4, a5, a6, a7, a8⟩ := is hne
    have hz : ∀ e, e ∉ r → upd s.val d 0 e = 0 := by
      intro e he
      by_cases hed : e = d
      · simp [upd, hed]
      · simp only [upd, hed, if_false]
        exact a8 e (by rw [h]; simp [hed, he])
    refine ⟨fun _ => ⟨a1, a2, a3, a4, a5, a6, a7, hz⟩, fun hs ho => ?_⟩
    have hr : r = [] := hs
    subst hr
    refine ⟨[], by simpa using a7 ho, ?_⟩
    refine ⟨?_, ?_, ?_, ?_, ?_⟩ <;> simp [a1, a2, a3, a4, a5, a6, rtotal, hz, Pc.owes, Pc.todo, Pc.uncounted]

theorem inv_reach {ts : α → Nat} {pick : List α → Option (α × List α)} {c : Cfg} (hp : PickSpec ts pick) {s : St α}
    (h : Reach ts pick c s) : Inv ts c s := by
  induction h with
  | init =>
    refine ⟨fun h => absurd rfl h, fun _ _ => ⟨[], rfl, ?_⟩⟩
    refine ⟨?_, ?_, ?_, ?_, ?_⟩ <;> simp [St.init, rtotal, Pc.owes, Pc.todo, Pc.uncounted]
  | step s s' _ st ih => exact inv_step hp ih st

/-! ### Main theorems -/

def bound : Ctr → Nat
  | .hits => 2147483648
  | _ => 18446744073709551616

theorem shown_small {c : Ctr} {v : Nat} (h : v < bound c) : shown c v = v := by
  cases c with
  | hits =>
    have h' : v < 2147483648 := h
    have h1 : v % 4294967296 = v := Nat.mod_eq_of_lt (by omega)
    simp only [shown, MonReq.int32]
    rw [h1, if_pos h']
  | _ =>
    have h' : v < 18446744073709551616 := h
    simp only [shown, u64]
    rw [Nat.mod_eq_of_lt h']

theorem total_shown (c : Ctr) (raw : List (Ctr × Nat)) (h : rtotal c raw < bound c) :
    total c (raw.map shownP) = rtotal c raw := by
  induction raw with
  | nil => rfl
  | cons p raw ih =>
    obtain ⟨d, v⟩ := p
    by_cases hd : d = c
    · subst hd
      have e : rtotal d ((d, v) :: raw) = v + rtotal d raw := by simp [rtotal]
      have e2 : total d (((d, v) :: raw).map shownP) = shown d v + total d (raw.map shownP) := by
        simp [total, shownP]
      rw [e] at h ⊢
      rw [e2, ih (by omega), shown_small (by omega)]
      omega
    · have e : rtotal c ((d, v) :: raw) = rtotal c raw := by simp [rtotal, hd]
      have e2 : total c (((d, v) :: raw).map shownP) = total c (raw.map shownP) := by
        simp [total, shownP, hd]
      rw [e] at h ⊢
      rw [e2, ih h]

theorem late_tooOld (ts : α → Nat) (c : Cfg) (l : List (α × Nat))
    (h : ∀ p ∈ l, ts p.1 + c.timeout < 18446744073709551616) : l.countP (late ts c) = l.countP (tooOld ts c) := by
  apply List.countP_congr
  intro p hp
  have h1 : (ts p.1 + c.timeout) % 18446744073709551616 = ts p.1 + c.timeout := Nat.mod_eq_of_lt (h p hp)
  simp [late, tooOld, u64, h1]

/-- **C96 (counts, partial)** A run whose `start` overlapped no report, at any moment between two superchunks: what
was reported so far, plus what the next report will show, is exactly the number of TPs that entered the TP queue, of
TP sets that entered theirs, of TPs found too late, and of TPs found. At every other moment the reported values are at
most these numbers. Below 2^31 TPs per run and times below 2^64. Missing: the conclusion the reader draws from the
numbers, see `C96_balance_partial` and the counterexamples. -/
theorem C96_counts_partial (ts : α → Nat) (pick : List α → Option (α × List α)) (c : Cfg) (hp : PickSpec ts pick)
    (s : St α) (h : Reach ts pick c s) (hs : s.starting = []) (ho : s.overlap = false)
    (hn : s.found.length < 2147483648) (hset : s.setq.length < 18446744073709551616)
    (ht : ∀ p ∈ s.found, ts p.1 + c.timeout < 18446744073709551616) :
    (s.pc = .idle →
      counted s .sent = s.tpq.length ∧ counted s .sets = s.setq.length ∧
      counted s .dropped = s.found.countP (tooOld ts c) ∧ counted s .hits = s.found.length) ∧
    total .sent s.log ≤ s.tpq.length ∧ total .sets s.log ≤ s.setq.length ∧
    total .dropped s.log ≤ s.found.countP (tooOld ts c) ∧ total .hits s.log ≤ s.found.length := by
  obtain ⟨raw, hl, h1, h2, h3, h4, h5⟩ := (inv_reach hp h).run hs ho
  rw [late_tooOld ts c s.found ht] at h4
  have hle : s.found.countP (tooOld ts c) ≤ s.found.length := List.countP_le_length
  have b1 : rtotal .sent raw + s.val .sent < bound .sent := by simp only [bound]; omega
  have b2 : rtotal .sets raw + s.val .sets < bound .sets := by simp only [bound]; omega
  have b3 : rtotal .dropped raw + s.val .dropped < bound .dropped := by simp only [bound]; omega
  have b4 : rtotal .hits raw + s.val .hits < bound .hits := by simp only [bound]; omega
  unfold counted
  rw [hl, total_shown .sent raw (by omega), total_shown .sets raw (by omega), total_shown .dropped raw (by omega),
    total_shown .hits raw (by omega), shown_small (c := .sent) (by omega), shown_small (c := .sets) (by omega),
    shown_small (c := .dropped) (by omega), shown_small (c := .hits) (by omega)]
  refine ⟨fun hi => ?_, by omega, by omega, by omega, by omega⟩
  rw [hi] at h1 h2 h3 h4
  simp [Pc.owes, Pc.uncounted, Pc.todo] at h1 h2 h3 h4
  omega

/-- **C96 (balance, partial)** In such a run, after a complete report made between two superchunks (nothing is left to
be reported): TPs found = TPs sent + TPs dropped + TPs still held + TPs refused by the TP queue; so the three reported
numbers and the TPs still held account for every TP exactly if the TP queue refused none. -/
theorem C96_balance_partial (ts : α → Nat) (pick : List α → Option (α × List α)) (c : Cfg) (hp : PickSpec ts pick)
    (s : St α) (h : Reach ts pick c s) (hs : s.starting = []) (ho : s.overlap = false) (hi : s.pc = .idle)
    (hv : ∀ d, s.val d = 0) (hn : s.found.length < 2147483648) (hset : s.setq.length < 18446744073709551616)
    (ht : ∀ p ∈ s.found, ts p.1 + c.timeout < 18446744073709551616) :
    total .hits s.log = total .sent s.log + total .dropped s.log + s.buf.length + s.refused.length ∧
    (total .hits s.log = total .sent s.log + total .dropped s.log + s.buf.length ↔ s.refused = []) := by
  obtain ⟨raw, hl, h1, h2, h3, h4, h5⟩ := (inv_reach hp h).run hs ho
  have key : total .hits s.log = total .sent s.log + total .dropped s.log + s.buf.length + s.refused.length := by
    rw [hi] at h1 h2 h3 h4 h5
    simp [Pc.owes, Pc.uncounted, Pc.todo, hv] at h1 h2 h3 h4 h5
    rw [hl, total_shown .sent raw (by simp only [bound]; omega), total_shown .dropped raw (by simp only [bound]; omega),
      total_shown .hits raw (by simp only [bound]; omega)]
    omega
  refine ⟨key, ?_⟩
  rw [← List.length_eq_zero_iff]
  omega

/-! ### The handler of C28 to C30 -/

/-- Steps of the post-processing thread alone. -/
inductive Works (ts : α → Nat) (pick : List α → Option (α × List α)) (c : Cfg) : St α → St α → Prop where
  | refl (s : St α) : Works ts pick c s s
  | step (s s' s'' : St α) (st : Step ts pick c s s') (hm : s'.mon = s.mon) (hs : s'.starting = s.starting)
      (h : Works ts pick c s' s'') : Works ts pick c s s''

/-- State after the loop has taken the TPs `l`, `okTp k` saying whether the queue took the `k`-th of the set. -/
def taken (s : St α) (e : Nat) (set : List α) (buf : List α) (l : List (α × Bool)) : St α :=
  { s with
    buf := buf
    pc := .loop e (set ++ l.map (·.1))
    tpq := s.tpq ++ (l.filter (·.2)).map (·.1)
    refused := s.refused ++ (l.filter (fun p => !p.2)).map (·.1)
    val := upd s.val .sent (s.val .sent + (l.filter (·.2)).length) }

theorem upd_self (f : Ctr → Nat) (c : Ctr) : upd f c (f c) = f := by
  funext d; unfold upd; split <;> simp_all

theorem upd_upd (f : Ctr → Nat) (c : Ctr) (v w : Nat) : upd (upd f c v) c w = upd f c w := by
  funext d; unfold upd; split <;> rfl

theorem upd_same (f : Ctr → Nat) (c : Ctr) (v : Nat) : upd f c v c = v := by simp [upd]

theorem works_trans {ts : α → Nat} {pick : List α → Option (α × List α)} {c : Cfg} {s s' s'' : St α}
    (h : Works ts pick c s s') (h' : Works ts pick c s' s'') : Works ts pick c s s'' := by
  induction h with
  | refl s => exact h'
  | step s t u st hm hs _ ih => exact .step s t _ st hm hs (ih h')

theorem loop_works {ts : α → Nat} {pick : List α → Option (α × List α)} {c : Cfg} (okTp : Nat → Bool) (e : Nat) :
    ∀ (fuel k : Nat) (s : St α) (set : List α), s.pc = .loop e set →
      Works ts pick c s (taken s e set (TpHandler.drain ts pick e fuel s.buf).2
        (((TpHandler.drain ts pick e fuel s.buf).1.zipIdx k).map (fun p => (p.1, okTp p.2)))) := by
  intro fuel
  induction fuel with
  | zero =>
    intro k s set h
    have : taken s e set s.buf [] = s := by
      cases s
      simp only [taken, List.filter_nil, List.map_nil, List.length_nil, Nat.add_zero, upd_self, List.append_nil] at h ⊢
      rw [← h]
    simp only [TpHandler.drain, List.zipIdx_nil, List.map_nil]
    rw [this]
    exact .refl s
  | succ fuel ih =>
    intro k s set h
    have hstop : taken s e set s.buf [] = s := by
      cases s
      simp only [taken, List.filter_nil, List.map_nil, List.length_nil, Nat.add_zero, upd_self, List.append_nil] at h ⊢
      rw [← h]
    simp only [TpHandler.drain]
    cases hb : pick s.buf with
    | none =>
      simp only [List.zipIdx_nil, List.map_nil]
      rw [hstop]
      exact .refl s
    | some q =>
      obtain ⟨a, r⟩ := q
      dsimp only
      by_cases hlt : ts a < e
      · have hw : inWindow ts pick s.buf e = some (a, r) := by simp [inWindow, hb, hlt]
        rw [if_pos hlt]
        simp only [List.zipIdx_cons, List.map_cons]
        cases hok : okTp k with
        | true =>
          refine .step s _ _ (.pushTp s e set a r true h hw) rfl rfl ?_
          refine .step _ _ _ (.sent _ e (set ++ [a]) rfl) rfl rfl ?_
          have := ih (k + 1) { pushTp s e set a r true with
            val := upd (pushTp s e set a r true).val .sent ((pushTp s e set a r true).val .sent + 1)
            pc := .loop e (set ++ [a]) } (set ++ [a]) rfl
          refine cast ?_ this
          congr 1
          simp [taken, pushTp, upd_upd, upd_same, Nat.add_assoc, Nat.add_comm 1]
        | false =>
          refine .step s _ _ (.pushTp s e set a r false h hw) rfl rfl ?_
          have := ih (k + 1) (pushTp s e set a r false) (set ++ [a]) rfl
          refine cast ?_ this
          congr 1
          simp [taken, pushTp]
      · rw [if_neg hlt]
        simp only [List.zipIdx_nil, List.map_nil]
        rw [hstop]
        exact .refl s

theorem drain_stops {ts : α → Nat} {pick : List α → Option (α × List α)} (hp : PickSpec ts pick) (e : Nat) :
    ∀ (fuel : Nat) (buf : List α), buf.length ≤ fuel →
      inWindow ts pick (TpHandler.drain ts pick e fuel buf).2 e = none := by
  intro fuel
  induction fuel with
  | zero =>
    intro buf hl
    have : buf = [] := List.length_eq_zero_iff.1 (by omega)
    subst this
    have h0 := (hp []).1.2 rfl
    simp [TpHandler.drain, inWindow, h0]
  | succ fuel ih =>
    intro buf hl
    simp only [TpHandler.drain]
    cases hb : pick buf with
    | none => simp [inWindow, hb]
    | some q =>
      obtain ⟨a, r⟩ := q
      dsimp only
      by_cases hlt : ts a < e
      · rw [if_pos hlt]
        have := ((hp buf).2 a r hb).1.length_eq
        simp only [List.length_cons] at this
        exact ih r (by omega)
      · rw [if_neg hlt]
        simp [inWindow, hb, hlt]

/-- **C96 and C28 to C30** The steps here are those of the TP handler: whatever `try_sending_tpsets` does according
to C28 to C30 (to the buffer, the counters and the queues, for any behaviour of the two queues), the steps of the
thread do from the same buffer and counters. -/
theorem C96_handler (ts : α → Nat) (pick : List α → Option (α × List α)) (c : Cfg) (hp : PickSpec ts pick)
    (hc : c.window ≠ 0) (s : St α) (now : Nat) (h : s.pc = .check now) (t t' : TpHandler.St α)
    (hb : t.buf = s.buf) (h1 : t.sentTps = s.val .sent) (h2 : t.sentSets = s.val .sets)
    (okTp : Nat → Bool) (okSet : Bool) (hsend : TpHandler.trySend ts pick c t now okTp okSet = .ok t')
    (ht1 : t.tps = []) (ht2 : t.sets = []) :
    ∃ s', Works ts pick c s s' ∧ s'.pc = .idle ∧ s'.buf = t'.buf ∧ s'.val .sent = t'.sentTps ∧
      s'.val .sets = t'.sentSets ∧ s'.tpq = s.tpq ++ (t'.tps.filter (·.2)).map (·.1) ∧
      s'.refused = s.refused ++ (t'.tps.filter (fun p => !p.2)).map (·.1) ∧
      s'.setq = s.setq ++ (t'.sets.filter (·.2)).map (·.1.objects) ∧
      s'.val .dropped = s.val .dropped ∧ s'.val .hits = s.val .hits := by
  unfold TpHandler.trySend at hsend
  rw [hb] at hsend
  cases hpk : pick s.buf with
  | none =>
    rw [hpk] at hsend
    cases hsend
    have e : check ts pick c s now = { s with pc := .idle } := by simp [check, hpk]
    refine ⟨{ s with pc := .idle }, ?_, rfl, hb.symm, h1.symm, h2.symm, ?_⟩
    · rw [← e]
      exact .step s _ _ (.check s now h hc) (by rw [e]) (by rw [e]) (.refl _)
    · simp [ht1, ht2]
  | some q =>
    obtain ⟨a, r⟩ := q
    rw [hpk] at hsend
    dsimp only at hsend
    by_cases hw : u64 (u64 (ts a + c.window) + c.timeout) < now
    · rw [if_pos hw, if_neg hc] at hsend
      cases hsend
      generalize hE : u64 (u64 ((ts a / c.window) * c.window) + c.window) = E
      have e : check ts pick c s now = { s with pc := .loop E [] } := by simp [check, hpk, hw, hE]
      have hl := loop_works (ts := ts) (pick := pick) (c := c) okTp E s.buf.length 0 { s with pc := .loop E [] } [] rfl
      have hst := drain_stops hp E s.buf.length s.buf (Nat.le_refl _)
      dsimp only at hl
      generalize hD : TpHandler.drain ts pick E s.buf.length s.buf = D at hl hst ⊢
      have hmap : (D.1.zipIdx.map (fun p => (p.1, okTp p.2))).map (·.1) = D.1 := by
        simp [List.map_map, Function.comp_def]
      have hfirst : Works ts pick c s { s with pc := .loop E [] } := by
        rw [← e]
        exact .step s _ _ (.check s now h hc) (by rw [e]) (by rw [e]) (.refl _)
      have hmid := works_trans hfirst hl
      cases okSet with
      | true =>
        refine ⟨_, works_trans hmid (.step _ _ _ (.pushSet _ E _ true rfl hst) rfl rfl
          (.step _ _ _ (.sentSet _ rfl) rfl rfl (.refl _))), rfl, rfl, ?_⟩
        simp [pushSet, taken, upd, ht1, ht2, h1, h2, hmap]
      | false =>
        refine ⟨_, works_trans hmid (.step _ _ _ (.pushSet _ E _ false rfl hst) rfl rfl (.refl _)), rfl, rfl, ?_⟩
        simp [pushSet, taken, upd, ht1, ht2, h1, h2]
    · rw [if_neg hw] at hsend
      cases hsend
      have e : check ts pick c s now = { s with pc := .idle } := by simp [check, hpk, hw]
      refine ⟨{ s with pc := .idle }, ?_, rfl, hb.symm, h1.symm, h2.symm, ?_⟩
      · rw [← e]
        exact .step s _ _ (.check s now h hc) (by rw [e]) (by rw [e]) (.refl _)
      · simp [ht1, ht2]

/-! ### Concrete executions: TPs are their start times, timeout 100, windows of 50 -/

open Verif.TpHandler (pickMin pickMin_spec)

def exTs : Nat → Nat := fun x => x
def exCfg : Cfg := ⟨100, 50⟩

/-- Moves of an execution written down; `work ok` is the next step of the post-processing thread, `ok` says whether a
queue takes what is pushed. -/
inductive Mv where
  | frame (now : Nat) (tps : List Nat)
  | work (ok : Bool)
  | report
  | take
  | start
  | zero

def work (s : St Nat) (ok : Bool) : Option (St Nat) :=
  match s.pc with
  | .idle => none
  | .adding now (a :: r) n => some (add exTs exCfg s now a r n)
  | .adding now [] n => some { s with pc := .count now n }
  | .drop now r n => some { s with val := upd s.val .dropped (s.val .dropped + 1), pc := .adding now r n }
  | .count now n => some { s with val := upd s.val .hits (s.val .hits + n), pc := .check now }
  | .check now => some (check exTs (pickMin exTs) exCfg s now)
  | .loop e set =>
    match inWindow exTs (pickMin exTs) s.buf e with
    | some (a, r) => some (pushTp s e set a r ok)
    | none => some (pushSet s set ok)
  | .pushed e set => some { s with val := upd s.val .sent (s.val .sent + 1), pc := .loop e set }
  | .pushedSet => some { s with val := upd s.val .sets (s.val .sets + 1), pc := .idle }

def mv (s : St Nat) : Mv → Option (St Nat)
  | .frame now tps =>
    if s.pc = .idle ∧ s.starting = [] then
      some { s with found := s.found ++ tps.map (·, now), pc := .adding now tps 0 }
    else none
  | .work ok => work s ok
  | .report => if s.mon = [] then some { s with mon := order } else none
  | .take =>
    match s.mon with
    | d :: r => some (take s d r)
    | [] => none
  | .start => if s.starting = [] ∧ s.pc = .idle then some (begin s) else none
  | .zero =>
    match s.starting with
    | d :: r => some { s with val := upd s.val d 0, starting := r }
    | [] => none

abbrev ExStep := Step exTs (pickMin exTs) exCfg
abbrev ExReach := Reach exTs (pickMin exTs) exCfg

theorem work_step {s s' : St Nat} {ok : Bool} (h : work s ok = some s') : ExStep s s' := by
  unfold work at h
  split at h
  · cases h
  · next now a r n hp => cases h; exact .add s now a r n hp
  · next now n hp => cases h; exact .added s now n hp
  · next now r n hp => cases h; exact .drop s now r n hp
  · next now n hp => cases h; exact .count s now n hp
  · next now hp => cases h; exact .check s now hp (by decide)
  · next e set hp =>
    split at h
    · next a r hw => cases h; exact .pushTp s e set a r ok hp hw
    · next hw => cases h; exact .pushSet s e set ok hp hw
  · next e set hp => cases h; exact .sent s e set hp
  · next hp => cases h; exact .sentSet s hp

theorem mv_step {s s' : St Nat} {m : Mv} (h : mv s m = some s') : ExStep s s' := by
  cases m with
  | frame now tps =>
    simp only [mv] at h
    split at h
    · next hc => cases h; exact .frame s now tps hc.1 hc.2
    · cases h
  | work ok => exact work_step h
  | report =>
    simp only [mv] at h
    split at h
    · next hc => cases h; exact .report s hc
    · cases h
  | take =>
    simp only [mv] at h
    split at h
    · next d r hc => cases h; exact .take s d r hc
    · cases h
  | start =>
    simp only [mv] at h
    split at h
    · next hc => cases h; exact .start s hc.1 hc.2
    · cases h
  | zero =>
    simp only [mv] at h
    split at h
    · next d r hc => cases h; exact .zero s d r hc
    · cases h

def moves (s : St Nat) : List Mv → Option (St Nat)
  | [] => some s
  | m :: ms => (mv s m).bind (fun s' => moves s' ms)

theorem reach_moves {s s' : St Nat} (hs : ExReach s) {ms : List Mv} (h : moves s ms = some s') : ExReach s' := by
  induction ms generalizing s with
  | nil => cases h; exact hs
  | cons m ms ih =>
    simp only [moves] at h
    cases hm : mv s m with
    | none => rw [hm] at h; cases h
    | some t => rw [hm] at h; exact ih (.step s t hs (mv_step hm)) h

def doStart : List Mv := .start :: List.replicate 4 .zero
def doReport : List Mv := .report :: List.replicate 4 .take
def goOn (n : Nat) : List Mv := List.replicate n (.work true)

/-- What an observer sees, decidable. -/
structure View where
  vals : List Nat
  buf : List Nat
  idle : Bool
  started : Bool
  found : List (Nat × Nat)
  tpq : List Nat
  refused : List Nat
  setq : List (List Nat)
  log : List (Ctr × Int)
  overlap : Bool
  deriving DecidableEq

def view (s : St Nat) : View :=
  ⟨zeroed.map s.val, s.buf, decide (s.pc = .idle), decide (s.starting = []), s.found, s.tpq, s.refused, s.setq, s.log,
    s.overlap⟩

theorem moves_view {ms : List Mv} {v} (h : (moves St.init ms).map view = some v) : ∃ s, ExReach s ∧ view s = v := by
  cases hm : moves St.init ms with
  | none => rw [hm] at h; cases h
  | some s => rw [hm] at h; cases h; exact ⟨s, reach_moves .init hm, rfl⟩

theorem view_vals {s : St Nat} (h : zeroed.map s.val = [0, 0, 0, 0]) : ∀ d, s.val d = 0 := by
  simp only [zeroed, List.map_cons, List.map_nil, List.cons.injEq] at h
  intro d
  cases d <;> simp [h]

/-- A run with a TP sent, one dropped and one still held; a report in the middle of the processing and one after it. -/
theorem demo_run : ∃ s, ExReach s ∧ s.starting = [] ∧ s.overlap = false ∧ s.pc = .idle ∧ (∀ d, s.val d = 0) ∧
    s.found = [(1000, 1050), (900, 1050), (1300, 1350)] ∧ s.tpq = [1000] ∧ s.refused = [] ∧ s.setq = [[1000]] ∧
    s.buf = [1300] ∧ total .hits s.log = 3 ∧ total .dropped s.log = 1 ∧ total .sent s.log = 1 := by
  obtain ⟨s, hr, hv⟩ := moves_view (ms := doStart ++ [.frame 1050 [1000, 900]] ++ goOn 3 ++ doReport ++ goOn 3 ++
      [.frame 1350 [1300]] ++ goOn 8 ++ doReport)
    (v := ⟨[0, 0, 0, 0], [1300], true, true, [(1000, 1050), (900, 1050), (1300, 1350)], [1000], [], [[1000]],
    [(.sent, 0), (.sets, 0), (.dropped, 1), (.hits, 0), (.sent, 1), (.sets, 1), (.dropped, 0), (.hits, 3)], false⟩)
    (by decide +kernel)
  simp only [view, View.mk.injEq, decide_eq_true_eq] at hv
  obtain ⟨v1, v2, v3, v4, v5, v6, v7, v8, v9, v10⟩ := hv
  refine ⟨s, hr, v4, v10, v3, view_vals v1, v5, v6, v7, v8, v2, ?_, ?_, ?_⟩ <;> rw [v9] <;> rfl

/-- The hypotheses of both theorems hold there. -/
example : ∃ s, ExReach s ∧ counted s .hits = 3 ∧ total .hits s.log = total .sent s.log + total .dropped s.log + 1 := by
  obtain ⟨s, hr, h1, h2, h3, h4, h5, h6, h7, h8, h9, -⟩ := demo_run
  have ht : ∀ p ∈ s.found, exTs p.1 + exCfg.timeout < 18446744073709551616 := by rw [h5]; decide
  refine ⟨s, hr, ?_, ?_⟩
  · have := ((C96_counts_partial exTs _ exCfg (pickMin_spec exTs) s hr h1 h2 (by rw [h5]; decide) (by rw [h8]; decide)
      ht).1 h3).2.2.2
    rw [this, h5]; rfl
  · have := (C96_balance_partial exTs _ exCfg (pickMin_spec exTs) s hr h1 h2 h3 h4 (by rw [h5]; decide)
      (by rw [h8]; decide) ht).2.2 h7
    rw [this, h9]; rfl

/-- A call of the handler meeting the hypotheses of `C96_handler`: one TP is sent, the queue takes it. -/
example : ∃ s s' : St Nat, Works exTs (pickMin exTs) exCfg s s' ∧ s.tpq = [] ∧ s'.tpq = [1000] ∧ s'.setq = [[1000]] := by
  obtain ⟨s', hw, -, -, -, -, h5, -, h7, -⟩ := C96_handler exTs (pickMin exTs) exCfg (pickMin_spec exTs) (by decide)
    { (St.init : St Nat) with buf := [1000], pc := .check 1350 } 1350 rfl ⟨[1000], 0, 0, 0, [], []⟩
    ⟨[], 1, 1, 1, [(⟨1000, 1050, 0, [1000]⟩, true)], [(1000, true)]⟩ rfl rfl rfl (fun _ => true) true
    (by decide +kernel) rfl rfl
  exact ⟨_, s', hw, rfl, by rw [h5]; rfl, by rw [h7]; rfl⟩

/-- **C96 is false of the code (1), full TP queue**: a TP that the TP queue refuses is reported neither as sent nor as
dropped, although it is gone from the buffer; it is in a TP set that was sent. -/
theorem C96_refused_counterexample : ∃ s, ExReach s ∧ s.starting = [] ∧ s.overlap = false ∧ s.pc = .idle ∧
    (∀ d, s.val d = 0) ∧ s.found = [(1000, 1050)] ∧ s.buf = [] ∧ s.tpq = [] ∧ s.setq = [[1000]] ∧
    total .hits s.log = 1 ∧ total .sent s.log = 0 ∧ total .dropped s.log = 0 := by
  obtain ⟨s, hr, hv⟩ := moves_view (ms := doStart ++ [.frame 1050 [1000]] ++ goOn 4 ++ [.frame 1350 []] ++ goOn 3 ++
      [.work false] ++ goOn 2 ++ doReport)
    (v := ⟨[0, 0, 0, 0], [], true, true, [(1000, 1050)], [], [1000], [[1000]],
    [(.sent, 0), (.sets, 1), (.dropped, 0), (.hits, 1)], false⟩) (by decide +kernel)
  simp only [view, View.mk.injEq, decide_eq_true_eq] at hv
  obtain ⟨v1, v2, v3, v4, v5, v6, v7, v8, v9, v10⟩ := hv
  refine ⟨s, hr, v4, v10, v3, view_vals v1, v5, v2, v6, v8, ?_, ?_, ?_⟩ <;> rw [v9] <;> rfl

/-- **C96 is false of the code (2), full TP set queue**: the TPs of a set that the queue refuses are reported as sent,
the loss of the set is in no number: hits, sent and dropped agree although the set is gone. -/
theorem C96_set_counterexample : ∃ s, ExReach s ∧ s.starting = [] ∧ s.overlap = false ∧ s.pc = .idle ∧
    (∀ d, s.val d = 0) ∧ s.found = [(1000, 1050)] ∧ s.buf = [] ∧ s.setq = [] ∧
    total .hits s.log = 1 ∧ total .sent s.log = 1 ∧ total .dropped s.log = 0 := by
  obtain ⟨s, hr, hv⟩ := moves_view (ms := doStart ++ [.frame 1050 [1000]] ++ goOn 4 ++ [.frame 1350 []] ++ goOn 5 ++
      [.work false] ++ doReport)
    (v := ⟨[0, 0, 0, 0], [], true, true, [(1000, 1050)], [1000], [], [],
    [(.sent, 1), (.sets, 0), (.dropped, 0), (.hits, 1)], false⟩) (by decide +kernel)
  simp only [view, View.mk.injEq, decide_eq_true_eq] at hv
  obtain ⟨v1, v2, v3, v4, v5, v6, v7, v8, v9, v10⟩ := hv
  refine ⟨s, hr, v4, v10, v3, view_vals v1, v5, v2, v8, ?_, ?_, ?_⟩ <;> rw [v9] <;> rfl

/-- **C96 is false of the code (3), end of the run**: TPs still held when the next run starts are discarded without
being counted; what was not reported by then is never reported. -/
theorem C96_start_counterexample :
    (∃ s s', ExReach s ∧ s.found = [(1000, 1050)] ∧ s.pc = .idle ∧ s.buf = [1000] ∧ total .hits s.log = 1 ∧
      total .sent s.log = 0 ∧ total .dropped s.log = 0 ∧ moves s doStart = some s' ∧ s'.buf = [] ∧
      ∀ d, s'.val d = 0) ∧
    (∃ s s', ExReach s ∧ s.found = [(900, 1050)] ∧ s.pc = .idle ∧ s.log = [] ∧ moves s doStart = some s' ∧
      ∀ d, s'.val d = 0) := by
  constructor
  · obtain ⟨s, hs⟩ : ∃ s, moves St.init (doStart ++ [.frame 1050 [1000]] ++ goOn 4 ++ doReport) = some s := ⟨_, rfl⟩
    have hv : (moves St.init (doStart ++ [.frame 1050 [1000]] ++ goOn 4 ++ doReport)).map view =
      some ⟨[0, 0, 0, 0], [1000], true, true, [(1000, 1050)], [], [], [],
        [(.sent, 0), (.sets, 0), (.dropped, 0), (.hits, 1)], false⟩ := by decide +kernel
    have h0 : ((moves St.init (doStart ++ [.frame 1050 [1000]] ++ goOn 4 ++ doReport)).bind
      (fun s => (moves s doStart).map view)) =
      some ⟨[0, 0, 0, 0], [], true, true, [], [], [], [], [], false⟩ := by decide +kernel
    rw [hs] at hv h0
    simp only [Option.map_some, Option.some.injEq, view, View.mk.injEq, decide_eq_true_eq] at hv
    simp only [Option.bind_some] at h0
    cases hm : moves s doStart with
    | none => rw [hm] at h0; cases h0
    | some s' =>
      rw [hm] at h0
      simp only [Option.map_some, Option.some.injEq, view, View.mk.injEq] at h0
      obtain ⟨v1, v2, v3, v4, v5, v6, v7, v8, v9, v10⟩ := hv
      refine ⟨s, s', reach_moves .init hs, v5, v3, v2, ?_, ?_, ?_, hm, h0.2.1, view_vals h0.1⟩ <;> rw [v9] <;> rfl
  · obtain ⟨s, hs⟩ : ∃ s, moves St.init (doStart ++ [.frame 1050 [900]] ++ goOn 5) = some s := ⟨_, rfl⟩
    have hv : (moves St.init (doStart ++ [.frame 1050 [900]] ++ goOn 5)).map view =
      some ⟨[0, 0, 1, 1], [], true, true, [(900, 1050)], [], [], [], [], false⟩ := by decide +kernel
    have h0 : ((moves St.init (doStart ++ [.frame 1050 [900]] ++ goOn 5)).bind
      (fun s => (moves s doStart).map view)) =
      some ⟨[0, 0, 0, 0], [], true, true, [], [], [], [], [], false⟩ := by decide +kernel
    rw [hs] at hv h0
    simp only [Option.map_some, Option.some.injEq, view, View.mk.injEq, decide_eq_true_eq] at hv
    simp only [Option.bind_some] at h0
    cases hm : moves s doStart with
    | none => rw [hm] at h0; cases h0
    | some s' =>
      rw [hm] at h0
      simp only [Option.map_some, Option.some.injEq, view, View.mk.injEq] at h0
      obtain ⟨v1, v2, v3, v4, v5, v6, v7, v8, v9, v10⟩ := hv
      exact ⟨s, s', reach_moves .init hs, v5, v3, v9, hm, view_vals h0.1⟩

end Verif.MonTp
