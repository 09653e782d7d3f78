import Verif.TpRunsModel
import Verif.LinkTpProps
/- Property C94: over many runs and all interleavings, the post-processing of a run is that of the run's own
payloads, in order, by a function that starts afresh. -/
namespace Verif.TpRuns
variable {P σ ι : Type}

/-! ### Specification vocabulary -/

/-- The function called for a list of payloads with other inputs, one after the other. -/
def feed (f : σ → P → ι → Outcome σ) : σ → List (P × ι) → Outcome σ
  | t, [] => .ok t
  | t, x :: xs => f t x.1 x.2 >>= fun t' => feed f t' xs

/-- Every cleanup leaves more payloads than pointers can be under way. -/
def Leaves (c : Cfg) : Prop := 2 ≤ c.n ∧ ∀ o, c.limit < o → c.pop o + c.qcap + 2 ≤ o

/-- The run was post-processed properly: one call for each payload received, in order, from a fresh state. -/
def Proper (start : σ → Prop) (f : σ → P → ι → Outcome σ) (e : Ended P σ ι) : Prop :=
  e.used.length = e.recv.length ∧ start e.tp0 ∧ feed f e.tp0 (e.recv.zip e.used) = .ok e.tp

/-! ### Basic facts -/

theorem feed_append (f : σ → P → ι → Outcome σ) (l : List (P × ι)) (t u : σ) (h : feed f t l = .ok u) (x : P × ι) :
    feed f t (l ++ [x]) = f u x.1 x.2 := by
  induction l generalizing t with
  | nil =>
    simp only [feed] at h; injection h with h; subst h
    simp only [List.nil_append, feed]
    cases f t x.1 x.2 <;> simp
  | cons y l ih =>
    simp only [List.cons_append, feed] at h ⊢
    cases hy : f t y.1 y.2 with
    | ok v => rw [hy, Outcome.bind_ok] at h; rw [Outcome.bind_ok]; exact ih v h
    | ub w => rw [hy, Outcome.bind_ub] at h; cases h
    | throws w => rw [hy, Outcome.bind_throws] at h; cases h

theorem zip_more {α β : Type} (a : List α) (b : List β) (x : List α) (h : b.length ≤ a.length) :
    (a ++ x).zip b = a.zip b := by
  induction a generalizing b with
  | nil => simp at h; subst h; simp
  | cons y a ih =>
    cases b with
    | nil => simp
    | cons z b => simp at h; simp [ih b h]

theorem zip_next {α β : Type} (a : List α) (b : List β) (x : β) (y : α) (h : a[b.length]? = some y) :
    a.zip (b ++ [x]) = a.zip b ++ [(y, x)] := by
  induction b generalizing a with
  | nil => cases a with
    | nil => simp at h
    | cons z a => simp at h; subst h; simp
  | cons z b ih =>
    cases a with
    | nil => simp at h
    | cons u a => simp at h; simp [ih a h]

/-- Payloads received and not yet written. -/
def inflight : CPc P → List P
  | .have_ p => [p]
  | .writing p => [p]
  | _ => []

/-- Payloads written and not yet handed on. -/
def unposted : CPc P → Nat
  | .wrote => 1
  | _ => 0

/-- Pointers under way, oldest first. -/
def under (s : St P σ ι) : List (Option Nat) := (s.hand.map (·.1)).toList ++ s.q

/-! ### The invariant -/

/-- In a run without losses: `pre` are the payloads stored, `A` of them were handed on, `m` are processed. -/
structure Good (c : Cfg) (start : σ → Prop) (f : σ → P → ι → Outcome σ) (s : St P σ ι) (m A : Nat)
    (pre : List P) : Prop where
  fresh : start s.tp0
  recv : s.recv = pre ++ inflight s.c
  stored : s.w0 + pre.length = s.w
  posted : A + unposted s.c = pre.length
  used : s.used.length = m
  le : m ≤ A
  state : feed f s.tp0 (pre.zip s.used) = .ok s.tp
  ptrs : under s = (List.range' m (A - m)).map fun k => some ((s.w0 + k) % c.n)
  calm : ∀ x d, s.hand = some (x, d) → d = false
  mem : ∀ (k : Nat) (p : P), m ≤ k → pre[k]? = some p → s.mem ((s.w0 + k) % c.n) = p
  live : s.ph = .running ∨ s.ph = .stopping → s.r + s.cl.getD 0 ≤ s.w0 + m

structure Inv (c : Cfg) (start : σ → Prop) (f : σ → P → ι → Outcome σ) (s : St P σ ι) : Prop where
  qlen : s.q.length ≤ c.qcap
  bud : s.r + s.cl.getD 0 ≤ s.w
  room : ∀ p, s.c = .writing p → s.w < s.r + c.n
  over : s.ph ≠ .running → s.ph ≠ .stopping → s.c = .done ∧ s.cl = none ∧ s.r = s.w
  away : s.tDone = true → s.q = [] ∧ s.hand = none ∧ (s.ph = .postStopped ∨ s.ph = .idle)
  idle : s.ph = .idle → s.tDone = true
  good : s.ph ≠ .idle → s.refused = 0 → s.lost = 0 → ∃ m A pre, Good c start f s m A pre
  ended : ∀ e ∈ s.ended, e.refused = 0 → e.lost = 0 → Proper start f e

theorem under_length {c : Cfg} {start : σ → Prop} {f : σ → P → ι → Outcome σ} {s : St P σ ι} {m A : Nat}
    {pre : List P} (g : Good c start f s m A pre) (hq : s.q.length ≤ c.qcap) : A ≤ m + c.qcap + 1 := by
  have h := congrArg List.length g.ptrs
  rw [List.length_map, List.length_range', under, List.length_append] at h
  cases hh : s.hand with
  | none => rw [hh] at h; simp at h; omega
  | some x => rw [hh] at h; simp at h; omega

/-- Payloads with different numbers, less than the size apart, are in different slots. -/
theorem slot_ne {a b n : Nat} (h1 : a < b) (h2 : b < a + n) : b % n ≠ a % n := by
  intro h
  have h3 : (b - a) % n = 0 := by
    have := Nat.sub_mod_eq_zero_of_mod_eq h
    exact this
  rw [Nat.mod_eq_of_lt (by omega)] at h3
  omega

theorem range'_cons_of_lt {m A : Nat} (h : m < A) : List.range' m (A - m) = m :: List.range' (m + 1) (A - (m + 1)) := by
  rw [show A - m = (A - (m + 1)) + 1 by omega, List.range'_succ]

theorem under_touch (s : St P σ ι) (slot : Nat) : ((touch s.hand slot).map (·.1)).toList ++ s.q = under s := by
  unfold under touch
  cases s.hand <;> rfl

/-- Writing the slot of payload number `w` does not disturb the slots under way. -/
theorem good_mem {c : Cfg} {start : σ → Prop} {f : σ → P → ι → Outcome σ} {s : St P σ ι} {m A : Nat}
    {pre : List P} (g : Good c start f s m A pre) (hph : s.ph = .running ∨ s.ph = .stopping)
    (hroom : s.w < s.r + c.n) :
    (∀ k, m ≤ k → k < pre.length → (s.w0 + k) % c.n ≠ s.w % c.n) ∧
    (∀ x d, touch s.hand (s.w % c.n) = some (x, d) → d = false) := by
  have hl := g.live hph
  have key : ∀ k, m ≤ k → k < pre.length → (s.w0 + k) % c.n ≠ s.w % c.n := by
    intro k h1 h2
    have := g.stored
    exact (slot_ne (a := s.w0 + k) (b := s.w) (by omega) (by omega)).symm
  refine ⟨key, ?_⟩
  intro x d h
  unfold touch at h
  cases hh : s.hand with
  | none => rw [hh] at h; cases h
  | some y =>
    rw [hh, Option.map_some] at h
    injection h with h
    have hy := g.calm y.1 y.2 hh
    injection h with h1 h2
    rw [← h2, hy, Bool.false_or, decide_eq_false_iff_not]
    have hp := g.ptrs
    unfold under at hp
    rw [hh] at hp
    have hm : y.1 ∈ (List.range' m (A - m)).map fun k => some ((s.w0 + k) % c.n) := by
      rw [← hp]; simp
    rw [List.mem_map] at hm
    obtain ⟨k, hk, e⟩ := hm
    rw [List.mem_range'_1] at hk
    rw [← e]
    intro h; injection h with h
    have := g.posted
    exact key k hk.1 (by omega) h

theorem inv_init (c : Cfg) (start : σ → Prop) (f : σ → P → ι → Outcome σ) (mem : Nat → P) (tp : σ) :
    Inv c start f (.init mem tp) := by
  refine ⟨Nat.zero_le _, Nat.le_refl _, (fun _ h => nomatch h), fun _ _ => ⟨rfl, rfl, rfl⟩, fun _ => ⟨rfl, rfl, Or.inr rfl⟩, fun _ => rfl,
    fun h => absurd rfl h, ?_⟩
  intro e he; simp [St.init] at he

theorem inv_step {c : Cfg} (hc : Leaves c) {start : σ → Prop} {f : σ → P → ι → Outcome σ} {s s' : St P σ ι}
    (h : Inv c start f s) (st : Step c start f s s') : Inv c start f s' := by
  cases st with
  | start tp hp ht =>
    obtain ⟨o1, o2, o3⟩ := h.over (by rw [hp]; simp) (by rw [hp]; simp)
    obtain ⟨a1, a2, -⟩ := h.away (h.idle hp)
    refine ⟨h.qlen, h.bud, (fun _ h => nomatch h), fun h => absurd rfl h, by simp [startCmd], by simp [startCmd], ?_, h.ended⟩
    intro _ _ _
    refine ⟨0, 0, [], ⟨ht, rfl, rfl, rfl, rfl, Nat.le_refl _, rfl, ?_, ?_, ?_, ?_⟩⟩
    · simp [under, startCmd, a1, a2]
    · intro x d hx; simp [startCmd, a2] at hx
    · intro k p _ hp; simp at hp
    · intro _; simp [startCmd, o2, o3]
  | arrive p hi =>
    refine ⟨h.qlen, h.bud, (fun _ h => nomatch h), ?_, h.away, h.idle, ?_, h.ended⟩
    · intro h1 h2
      have := (h.over h1 h2).1
      rw [hi] at this; cases this
    · intro h1 h2 h3
      obtain ⟨m, A, pre, g⟩ := h.good h1 h2 h3
      refine ⟨m, A, pre, ⟨g.fresh, ?_, g.stored, ?_, g.used, g.le, g.state, g.ptrs, g.calm, g.mem, g.live⟩⟩
      · have := g.recv
        rw [hi] at this
        simp [arrive, inflight, this]
      · have := g.posted
        rw [hi] at this
        exact this
  | beginWrite p g0 hi =>
    have hph : s.ph = .running ∨ s.ph = .stopping := by
      by_cases h1 : s.ph = .running
      · exact Or.inl h1
      · by_cases h2 : s.ph = .stopping
        · exact Or.inr h2
        · have := (h.over h1 h2).1; rw [hi] at this; cases this
    unfold beginWrite
    by_cases hroom : s.w - s.r < c.n - 1
    · rw [if_pos hroom]
      refine ⟨h.qlen, h.bud, (fun _ _ => by show s.w < s.r + c.n; omega), ?_, ?_, h.idle, ?_, h.ended⟩
      · intro h1 h2; rcases hph with hph | hph <;> contradiction
      · intro h1
        have := (h.away h1).2.2
        rcases hph with hph | hph <;> rw [hph] at this <;> simp at this
      · intro h1 h2 h3
        obtain ⟨m, A, pre, g⟩ := h.good h1 h2 h3
        obtain ⟨k1, k2⟩ := good_mem g hph (by omega)
        refine ⟨m, A, pre, ⟨g.fresh, ?_, g.stored, ?_, g.used, g.le, g.state, (under_touch s _).trans g.ptrs, k2, ?_, g.live⟩⟩
        · have := g.recv; rw [hi] at this; exact this
        · have := g.posted; rw [hi] at this; exact this
        · intro k p' hk hp
          have hlt := (List.getElem?_eq_some_iff.1 hp).1
          show store s.mem (s.w % c.n) g0 ((s.w0 + k) % c.n) = p'
          rw [store, if_neg (k1 k hk hlt)]
          exact g.mem k p' hk hp
    · rw [if_neg hroom]
      refine ⟨h.qlen, h.bud, (fun _ h => nomatch h), ?_, h.away, h.idle, ?_, h.ended⟩
      · intro h1 h2; rcases hph with hph | hph <;> contradiction
      · intro _ h2; exact absurd h2 (Nat.succ_ne_zero _)
  | endWrite p hi =>
    have hph : s.ph = .running ∨ s.ph = .stopping := by
      by_cases h1 : s.ph = .running
      · exact Or.inl h1
      · by_cases h2 : s.ph = .stopping
        · exact Or.inr h2
        · have := (h.over h1 h2).1; rw [hi] at this; cases this
    have hroom := h.room p hi
    refine ⟨h.qlen, ?_, (fun _ h => nomatch h), ?_, ?_, h.idle, ?_, h.ended⟩
    · have := h.bud
      show s.r + s.cl.getD 0 ≤ s.w + 1
      omega
    · intro h1 h2; rcases hph with hph | hph <;> contradiction
    · intro h1
      have := (h.away h1).2.2
      rcases hph with hph | hph <;> rw [hph] at this <;> simp at this
    · intro h1 h2 h3
      obtain ⟨m, A, pre, g⟩ := h.good h1 h2 h3
      obtain ⟨k1, k2⟩ := good_mem g hph hroom
      have hpost := g.posted
      have hrecv := g.recv
      have hst := g.stored
      rw [hi] at hpost hrecv
      simp only [unposted] at hpost
      refine ⟨m, A, pre ++ [p], ⟨g.fresh, ?_, ?_, ?_, g.used, g.le, ?_, (under_touch s _).trans g.ptrs, k2, ?_, g.live⟩⟩
      · show s.recv = pre ++ [p] ++ []
        rw [hrecv, List.append_nil]; rfl
      · show s.w0 + (pre ++ [p]).length = s.w + 1
        rw [List.length_append, List.length_singleton]; omega
      · show A + 1 = (pre ++ [p]).length
        rw [List.length_append, List.length_singleton]; omega
      · have hle : s.used.length ≤ pre.length := by have := g.used; have := g.le; omega
        show feed f s.tp0 ((pre ++ [p]).zip s.used) = .ok s.tp
        rw [zip_more _ _ _ hle]
        exact g.state
      · intro k p' hk hp
        show store s.mem (s.w % c.n) p ((s.w0 + k) % c.n) = p'
        by_cases hlt : k < pre.length
        · rw [store, if_neg (k1 k hk hlt)]
          rw [List.getElem?_append_left hlt] at hp
          exact g.mem k p' hk hp
        · have hk2 := (List.getElem?_eq_some_iff.1 hp).1
          rw [List.length_append, List.length_singleton] at hk2
          have hk3 : k = pre.length := by omega
          subst hk3
          rw [List.getElem?_append_right (Nat.le_refl _), Nat.sub_self] at hp
          simp at hp
          rw [store, if_pos (by rw [hst]), hp]
  | postBack hi =>
    have hph : s.ph = .running ∨ s.ph = .stopping := by
      by_cases h1 : s.ph = .running
      · exact Or.inl h1
      · by_cases h2 : s.ph = .stopping
        · exact Or.inr h2
        · have := (h.over h1 h2).1; rw [hi] at this; cases this
    have hover : ∀ (x : Prop), s.ph ≠ .running → s.ph ≠ .stopping → x := by
      intro x h1 h2; rcases hph with hph | hph <;> contradiction
    have haway : ∀ (x : Prop), s.tDone = true → x := by
      intro x h1
      have := (h.away h1).2.2
      rcases hph with hph | hph <;> rw [hph] at this <;> simp at this
    unfold postBack
    by_cases hq : s.q.length < c.qcap
    · rw [if_pos hq]
      refine ⟨?_, h.bud, (fun _ h => nomatch h), fun h1 h2 => hover _ h1 h2, fun h1 => haway _ h1, h.idle, ?_, h.ended⟩
      · show (s.q ++ [_]).length ≤ c.qcap
        rw [List.length_append, List.length_singleton]; omega
      · intro h1 h2 h3
        obtain ⟨m, A, pre, g⟩ := h.good h1 h2 h3
        have hpost := g.posted
        have hrecv := g.recv
        have hst := g.stored
        have hlive := g.live hph
        have hle := g.le
        rw [hi] at hpost hrecv
        simp only [unposted] at hpost
        refine ⟨m, A + 1, pre, ⟨g.fresh, hrecv, hst, hpost, g.used, by omega, g.state, ?_, g.calm, g.mem, g.live⟩⟩
        show (s.hand.map (·.1)).toList ++ (s.q ++ [back c s]) = _
        rw [← List.append_assoc]
        have := g.ptrs
        unfold under at this
        rw [this, show A + 1 - m = (A - m) + 1 by omega, List.range'_concat, List.map_append]
        congr 1
        unfold back
        rw [if_neg (by omega), List.map_singleton]
        show [some ((s.w - 1) % c.n)] = [some ((s.w0 + (m + 1 * (A - m))) % c.n)]
        rw [show s.w0 + (m + 1 * (A - m)) = s.w - 1 by omega]
    · rw [if_neg hq]
      refine ⟨h.qlen, h.bud, (fun _ h => nomatch h), fun h1 h2 => hover _ h1 h2, h.away, h.idle, ?_, h.ended⟩
      intro _ _ h3; exact absurd h3 (Nat.succ_ne_zero _)
  | leave hi hs =>
    refine ⟨h.qlen, h.bud, (fun _ h => nomatch h), fun _ h2 => absurd hs h2, h.away, h.idle, ?_, h.ended⟩
    intro h1 h2 h3
    obtain ⟨m, A, pre, g⟩ := h.good h1 h2 h3
    have hpost := g.posted
    have hrecv := g.recv
    rw [hi] at hpost hrecv
    exact ⟨m, A, pre, ⟨g.fresh, hrecv, g.stored, hpost, g.used, g.le, g.state, g.ptrs, g.calm, g.mem, g.live⟩⟩
  | cleanBegin hp hcl hl =>
    have hle := hc.2 _ hl
    refine ⟨h.qlen, ?_, h.room, ?_, h.away, h.idle, ?_, h.ended⟩
    · show s.r + c.pop (s.w - s.r) ≤ s.w
      omega
    · intro h1 h2; rcases hp with hp | hp <;> contradiction
    · intro h1 h2 h3
      obtain ⟨m, A, pre, g⟩ := h.good h1 h2 h3
      refine ⟨m, A, pre, ⟨g.fresh, g.recv, g.stored, g.posted, g.used, g.le, g.state, g.ptrs, g.calm, g.mem, ?_⟩⟩
      intro _
      show s.r + c.pop (s.w - s.r) ≤ s.w0 + m
      have h1 := under_length g h.qlen
      have h2 := g.stored
      have h3 := g.posted
      have h4 : unposted s.c ≤ 1 := by unfold unposted; split <;> omega
      omega
  | cleanPop b hcl =>
    refine ⟨h.qlen, ?_, ?_, ?_, h.away, h.idle, ?_, h.ended⟩
    · have := h.bud
      rw [hcl] at this
      show s.r + 1 + b ≤ s.w
      simp at this; omega
    · intro p hp
      have := h.room p hp
      show s.w < s.r + 1 + c.n
      omega
    · intro h1 h2
      have := (h.over h1 h2).2.1
      rw [hcl] at this; cases this
    · intro h1 h2 h3
      obtain ⟨m, A, pre, g⟩ := h.good h1 h2 h3
      refine ⟨m, A, pre, ⟨g.fresh, g.recv, g.stored, g.posted, g.used, g.le, g.state, g.ptrs, g.calm, g.mem, ?_⟩⟩
      intro hp
      have := g.live hp
      rw [hcl] at this
      show s.r + 1 + b ≤ s.w0 + m
      simp at this; omega
  | cleanEnd b hcl =>
    refine ⟨h.qlen, ?_, h.room, ?_, h.away, h.idle, ?_, h.ended⟩
    · have := h.bud
      show s.r + 0 ≤ s.w
      omega
    · intro h1 h2
      have := (h.over h1 h2).2.1
      rw [hcl] at this; cases this
    · intro h1 h2 h3
      obtain ⟨m, A, pre, g⟩ := h.good h1 h2 h3
      refine ⟨m, A, pre, ⟨g.fresh, g.recv, g.stored, g.posted, g.used, g.le, g.state, g.ptrs, g.calm, g.mem, ?_⟩⟩
      intro hp
      have := g.live hp
      show s.r + 0 ≤ s.w0 + m
      omega
  | take x q hd hh hq =>
    refine ⟨?_, h.bud, h.room, h.over, ?_, h.idle, ?_, h.ended⟩
    · have := h.qlen
      rw [hq, List.length_cons] at this
      show q.length ≤ c.qcap
      omega
    · intro h1
      have : s.tDone = true := h1
      rw [hd] at this; cases this
    · intro h1 h2 h3
      obtain ⟨m, A, pre, g⟩ := h.good h1 h2 h3
      refine ⟨m, A, pre, ⟨g.fresh, g.recv, g.stored, g.posted, g.used, g.le, g.state, ?_, ?_, g.mem, g.live⟩⟩
      · have := g.ptrs
        unfold under at this ⊢
        rw [hh, hq] at this
        exact this
      · intro y d hy
        injection hy with hy
        injection hy with _ hy
        exact hy.symm
  | callNull d hh =>
    refine ⟨h.qlen, h.bud, h.room, h.over, ?_, h.idle, ?_, h.ended⟩
    · intro h1
      have := (h.away h1).2.1
      rw [hh] at this; cases this
    · intro h1 h2 h3
      exfalso
      obtain ⟨m, A, pre, g⟩ := h.good h1 h2 h3
      have := g.ptrs
      unfold under at this
      rw [hh] at this
      have hm : (none : Option Nat) ∈ (List.range' m (A - m)).map fun k => some ((s.w0 + k) % c.n) := by
        rw [← this]; simp
      simp at hm
  | call slot d v i t hh hv he =>
    refine ⟨h.qlen, h.bud, h.room, h.over, ?_, h.idle, ?_, h.ended⟩
    · intro h1
      have := (h.away h1).2.1
      rw [hh] at this; cases this
    · intro h1 h2 h3
      obtain ⟨m, A, pre, g⟩ := h.good h1 h2 h3
      have hd := g.calm _ _ hh
      have hv := hv hd
      have hptr := g.ptrs
      unfold under at hptr
      rw [hh] at hptr
      have hlt : m < A := by
        by_cases hlt : m < A
        · exact hlt
        · rw [show A - m = 0 by omega] at hptr
          simp at hptr
      rw [range'_cons_of_lt hlt, List.map_cons] at hptr
      simp only [Option.map_some, Option.toList_some, List.cons_append, List.nil_append] at hptr
      injection hptr with hp1 hp2
      injection hp1 with hp1
      have hpost := g.posted
      have hlen : m < pre.length := by omega
      obtain ⟨p, hp⟩ : ∃ p, pre[m]? = some p := ⟨_, List.getElem?_eq_getElem hlen⟩
      have hm := g.mem m p (Nat.le_refl _) hp
      rw [← hp1] at hm
      rw [hm] at hv
      subst hv
      refine ⟨m + 1, A, pre, ⟨g.fresh, g.recv, g.stored, g.posted, ?_, hlt, ?_, ?_, ?_, ?_, ?_⟩⟩
      · show (s.used ++ [i]).length = m + 1
        rw [List.length_append, g.used]; rfl
      · show feed f s.tp0 (pre.zip (s.used ++ [i])) = .ok t
        rw [zip_next _ _ i v (by rw [g.used]; exact hp), feed_append f _ _ _ g.state]
        exact he
      · exact hp2
      · intro x d hx; cases hx
      · intro k p hk hp; exact g.mem k p (by omega) hp
      · intro hp
        have := g.live hp
        show s.r + s.cl.getD 0 ≤ s.w0 + (m + 1)
        omega
  | postLeave hq hh hs =>
    refine ⟨h.qlen, h.bud, h.room, h.over, fun _ => ⟨hq, hh, Or.inl hs⟩, fun _ => rfl, ?_, h.ended⟩
    intro h1 h2 h3
    obtain ⟨m, A, pre, g⟩ := h.good h1 h2 h3
    exact ⟨m, A, pre, ⟨g.fresh, g.recv, g.stored, g.posted, g.used, g.le, g.state, g.ptrs, g.calm, g.mem, g.live⟩⟩
  | stop hs =>
    refine ⟨h.qlen, h.bud, h.room, fun _ h2 => absurd rfl h2, ?_, (fun h => nomatch h), ?_, h.ended⟩
    · intro h1
      have := (h.away h1).2.2
      rw [hs] at this; simp at this
    · intro _ h2 h3
      obtain ⟨m, A, pre, g⟩ := h.good (by rw [hs]; simp) h2 h3
      exact ⟨m, A, pre, ⟨g.fresh, g.recv, g.stored, g.posted, g.used, g.le, g.state, g.ptrs, g.calm, g.mem,
        fun _ => g.live (Or.inl hs)⟩⟩
  | flush hs hcd hl =>
    refine ⟨h.qlen, ?_, ?_, fun _ _ => ⟨hcd, hl, rfl⟩, ?_, (fun h => nomatch h), ?_, h.ended⟩
    · show s.w + s.cl.getD 0 ≤ s.w
      rw [hl]; exact Nat.le_refl _
    · intro p hp
      have hp : s.c = .writing p := hp
      rw [hcd] at hp; cases hp
    · intro h1
      have := (h.away h1).2.2
      rw [hs] at this; simp at this
    · intro _ h2 h3
      obtain ⟨m, A, pre, g⟩ := h.good (by rw [hs]; simp) h2 h3
      refine ⟨m, A, pre, ⟨g.fresh, g.recv, g.stored, g.posted, g.used, g.le, g.state, g.ptrs, g.calm, g.mem, ?_⟩⟩
      intro hp; rcases hp with hp | hp <;> cases hp
  | postStop hs =>
    refine ⟨h.qlen, h.bud, h.room, fun _ _ => h.over (by rw [hs]; simp) (by rw [hs]; simp), ?_, (fun h => nomatch h), ?_, h.ended⟩
    · intro h1
      have := (h.away h1).2.2
      rw [hs] at this; simp at this
    · intro _ h2 h3
      obtain ⟨m, A, pre, g⟩ := h.good (by rw [hs]; simp) h2 h3
      refine ⟨m, A, pre, ⟨g.fresh, g.recv, g.stored, g.posted, g.used, g.le, g.state, g.ptrs, g.calm, g.mem, ?_⟩⟩
      intro hp; rcases hp with hp | hp <;> cases hp
  | ret hs ht =>
    obtain ⟨a1, a2, -⟩ := h.away ht
    refine ⟨h.qlen, h.bud, h.room, fun _ _ => h.over (by rw [hs]; simp) (by rw [hs]; simp),
      fun _ => ⟨a1, a2, Or.inr rfl⟩, fun _ => ht, fun h1 => absurd rfl h1, ?_⟩
    intro e he hr hl
    rcases List.mem_append.1 he with he | he
    · exact h.ended e he hr hl
    · rw [List.mem_singleton] at he
      subst he
      obtain ⟨m, A, pre, g⟩ := h.good (by rw [hs]; simp) hr hl
      have hcd := (h.over (by rw [hs]; simp) (by rw [hs]; simp)).1
      have hpost := g.posted
      have hrecv := g.recv
      rw [hcd] at hpost hrecv
      simp only [unposted, inflight, List.append_nil, Nat.add_zero] at hpost hrecv
      have hptr := congrArg List.length g.ptrs
      unfold under at hptr
      rw [a1, a2] at hptr
      simp at hptr
      have hle := g.le
      refine ⟨?_, g.fresh, ?_⟩
      · show s.used.length = s.recv.length
        rw [g.used, hrecv]; omega
      · show feed f s.tp0 (s.recv.zip s.used) = .ok s.tp
        rw [hrecv]; exact g.state

theorem inv_reach {c : Cfg} (hc : Leaves c) {start : σ → Prop} {f : σ → P → ι → Outcome σ} {s : St P σ ι}
    (h : Reach c start f s) : Inv c start f s := by
  induction h with
  | init mem tp => exact inv_init c start f mem tp
  | step s s' _ st ih => exact inv_step hc ih st

/-! ### Concrete links: the function notes the payloads it sees -/

def note (t : List Nat) (p : Nat) (_ : Unit) : Outcome (List Nat) := .ok (t ++ [p])

/-- Six slots, a queue of two pointers; a cleanup of at least five payloads removes one. -/
def small : Cfg := ⟨6, 2, 4, fun _ => 1⟩

theorem small_leaves : Leaves small := ⟨by decide, fun o h => by simp only [small] at h ⊢; omega⟩

/-- Three slots, a queue of four pointers; cleanups leave nothing behind. -/
def tight : Cfg := ⟨3, 4, 0, fun _ => 1⟩

def Noting (c : Cfg) : St Nat (List Nat) Unit → Prop := Reach c (· = []) note

theorem go {c : Cfg} {s s' : St Nat (List Nat) Unit} (h : Noting c s) (st : Step c (· = []) note s s') :
    Noting c s' := .step _ _ h st

/-- A payload arrives and is handed on. -/
theorem payload {c : Cfg} {s : St Nat (List Nat) Unit} (p : Nat) (h : Noting c s) (hi : s.c = .idle)
    (hroom : s.w - s.r < c.n - 1) :
    Noting c (postBack c (endWrite c (beginWrite c (arrive s p) p 0) p)) := by
  refine go (go (go (go h (.arrive _ p hi)) (.beginWrite _ p 0 rfl)) (.endWrite _ p ?_)) (.postBack _ rfl)
  unfold beginWrite
  rw [if_pos (show (arrive s p).w - (arrive s p).r < c.n - 1 from hroom)]

/-- The oldest pointer is taken and its payload processed. -/
theorem process {c : Cfg} {s : St Nat (List Nat) Unit} {slot : Nat} {q : List (Option Nat)} (h : Noting c s)
    (hd : s.tDone = false) (hh : s.hand = none) (hq : s.q = some slot :: q) :
    Noting c (called { s with q := q, hand := some (some slot, false) } (s.tp ++ [s.mem slot]) ()) :=
  go (go h (.take _ _ q hd hh hq)) (.call _ slot false _ () _ rfl (fun _ => rfl) rfl)

/-- A cleanup removes one payload. -/
theorem cleanOne {c : Cfg} {s : St Nat (List Nat) Unit} (h : Noting c s) (hp : s.ph = .running) (hc : s.cl = none)
    (hl : c.limit < s.w - s.r) (h1 : c.pop (s.w - s.r) = 1) : Noting c { s with cl := none, r := s.r + 1 } := by
  have a := go h (.cleanBegin _ (Or.inl hp) hc hl)
  rw [h1] at a
  exact go (go a (.cleanPop _ 0 rfl)) (.cleanEnd _ 0 rfl)

/-- A run of six payloads with a cleanup and another one. -/
theorem demo : ∃ s, Noting small s ∧ s.ended.map (fun e => (e.recv, e.tp, e.refused, e.lost)) =
    [([10, 11, 12, 13, 14, 15], [10, 11, 12, 13, 14, 15], 0, 0), ([20, 21], [20, 21], 0, 0)] := by
  have r0 : Noting small _ := .init (fun _ => 0) []
  have r1 := go r0 (.start _ [] rfl rfl)
  have r2 := process (payload 10 r1 rfl (by decide)) rfl rfl rfl
  have r3 := process (payload 11 r2 rfl (by decide)) rfl rfl rfl
  have r4 := process (payload 12 r3 rfl (by decide)) rfl rfl rfl
  have r5 := payload 13 r4 rfl (by decide)
  have r6 := cleanOne (payload 14 r5 rfl (by decide)) rfl rfl (by decide) rfl
  have r7 := process r6 rfl rfl rfl
  have r8 := payload 15 r7 rfl (by decide)
  have r9 := go r8 (.stop _ rfl)
  have r10 := go (go r9 (.leave _ rfl rfl)) (.flush _ rfl rfl rfl)
  have r11 := process (process r10 rfl rfl rfl) rfl rfl rfl
  have r12 := go (go (go r11 (.postStop _ rfl)) (.postLeave _ rfl rfl rfl)) (.ret _ rfl rfl)
  have r13 := go r12 (.start _ [] rfl rfl)
  have r14 := payload 21 (payload 20 r13 rfl (by decide)) rfl (by decide)
  have r15 := go (go r14 (.stop _ rfl)) (.leave _ rfl rfl)
  have r16 := go (go r15 (.flush _ rfl rfl rfl)) (.postStop _ rfl)
  have r17 := process (process r16 rfl rfl rfl) rfl rfl rfl
  have r18 := go (go r17 (.postLeave _ rfl rfl rfl)) (.ret _ rfl rfl)
  exact ⟨_, r18, rfl⟩

/-! ### Property C94 -/

/-- **C94 (partial)** In every execution over any number of runs: a finished run in which no payload was refused by
the buffer or the pointer queue has called the post-processing function once for each payload received in the run,
in order and with the contents received, the function having started afresh with the run; so its result is a
function of the payloads of the run alone. This although the function is given pointers to slots that are reused,
and may lag behind the flush at the end. Missing: settings with which a cleanup may leave fewer payloads than
pointers can be under way, where this is false, and runs with refused payloads (C50). -/
theorem C94_run_partial (c : Cfg) (hc : Leaves c) (start : σ → Prop) (f : σ → P → ι → Outcome σ) (s : St P σ ι)
    (h : Reach c start f s) (e : Ended P σ ι) (he : e ∈ s.ended) (hr : e.refused = 0) (hl : e.lost = 0) :
    Proper start f e :=
  (inv_reach hc h).ended e he hr hl

example : ∃ s, Reach small (· = []) note s ∧ ∃ e ∈ s.ended, e.refused = 0 ∧ e.lost = 0 ∧
    e.recv = [10, 11, 12, 13, 14, 15] := by
  obtain ⟨s, h, e⟩ := demo
  refine ⟨s, h, ?_⟩
  cases he : s.ended with
  | nil => rw [he] at e; cases e
  | cons x l =>
    rw [he, List.map_cons] at e
    injection e with e _
    injection e with e1 e2
    injection e2 with e2 e3
    injection e3 with e3 e4
    exact ⟨x, List.mem_cons_self, e3, e4, e1⟩

/-- **C94 (meanwhile, partial)** At any moment of a run without losses so far, the function has processed the first
payloads of the run, all but at most the queue's capacity and two. -/
theorem C94_meanwhile_partial (c : Cfg) (hc : Leaves c) (start : σ → Prop) (f : σ → P → ι → Outcome σ)
    (s : St P σ ι) (h : Reach c start f s) (hp : s.ph ≠ .idle) (hr : s.refused = 0) (hl : s.lost = 0) :
    s.used.length ≤ s.recv.length ∧ s.recv.length ≤ s.used.length + c.qcap + 2 ∧ start s.tp0 ∧
      feed f s.tp0 (s.recv.zip s.used) = .ok s.tp := by
  have i := inv_reach hc h
  obtain ⟨m, A, pre, g⟩ := i.good hp hr hl
  have h1 := under_length g i.qlen
  have h2 := g.recv
  have h3 := g.posted
  have h4 := g.used
  have h5 := g.le
  have h6 : (inflight s.c).length + unposted s.c ≤ 1 := by cases s.c <;> simp [inflight, unposted]
  have h7 := congrArg List.length h2
  rw [List.length_append] at h7
  refine ⟨by omega, by omega, g.fresh, ?_⟩
  rw [h2, zip_more _ _ _ (by omega)]
  exact g.state

example : ∃ s, Reach small (· = []) note s ∧ s.ph ≠ .idle ∧ s.refused = 0 ∧ s.lost = 0 ∧ s.recv = [10, 11] ∧
    s.tp = [10] := by
  have r0 : Noting small _ := .init (fun _ => 0) []
  have r1 := go r0 (.start _ [] rfl rfl)
  have r2 := process (payload 10 r1 rfl (by decide)) rfl rfl rfl
  have r3 := payload 11 r2 rfl (by decide)
  exact ⟨_, r3, nofun, rfl, rfl, rfl, rfl⟩

/-- **C94 is false of the code** for settings it accepts: with a pointer queue larger than what cleanups leave in
the buffer, slots are overwritten before they are processed. Four payloads are received, nothing is refused, no
warning is given, and the function is given the last payload twice and the first not at all. -/
theorem C94_overwritten_counterexample :
    ∃ s, Reach tight (· = []) note s ∧ s.ended.map (fun e => (e.recv, e.tp, e.refused, e.lost)) =
      [([10, 11, 12, 13], [13, 11, 12, 13], 0, 0)] := by
  have r0 : Noting tight _ := .init (fun _ => 0) []
  have r1 := go r0 (.start _ [] rfl rfl)
  have r2 := payload 11 (payload 10 r1 rfl (by decide)) rfl (by decide)
  have r3 := payload 12 (cleanOne r2 rfl rfl (by decide) rfl) rfl (by decide)
  have r4 := payload 13 (cleanOne r3 rfl rfl (by decide) rfl) rfl (by decide)
  have r5 := process (process r4 rfl rfl rfl) rfl rfl rfl
  have r6 := process (process r5 rfl rfl rfl) rfl rfl rfl
  have r7 := go (go (go r6 (.stop _ rfl)) (.leave _ rfl rfl)) (.flush _ rfl rfl rfl)
  have r8 := go (go (go r7 (.postStop _ rfl)) (.postLeave _ rfl rfl rfl)) (.ret _ rfl rfl)
  exact ⟨_, r8, rfl⟩

/-! ### Software trigger primitives -/

open Verif.Tpg Verif.Expand Verif.LinkTp
open Verif.TpHandler (PickSpec)
open Verif.TpChain (TrigPrim Push held)

/-- Superchunks one after the other in memory, and the timestamp by address. -/
def layout (l : List (Nat → Nat)) : Mem :=
  ⟨5568 * l.length + 8, fun a => (l.getD (a / 5568) fun _ => 0) (a % 5568)⟩

def stampAt (stamp : (Nat → Nat) → Nat) (l : List (Nat → Nat)) (a : Nat) : Nat :=
  stamp (l.getD (a / 5568) fun _ => 0)

/-- What the hit finder sees depends on the bytes of the superchunk only. -/
theorem inp_congr (m m' : Mem) (hb : Bytes m.byte) (hb' : Bytes m'.byte) (p p' : Nat) (hp : p + 5576 ≤ m.size)
    (hp' : p' + 5576 ≤ m'.size) (same : ∀ i, i < 5568 → m.byte (p + i) = m'.byte (p' + i)) :
    inp m p = inp m' p' := by
  obtain ⟨regs, e, h⟩ := expand_inp m p hp (fun _ _ => 0)
  obtain ⟨regs', e', h'⟩ := expand_inp m' p' hp' (fun _ _ => 0)
  rw [← h, ← h']
  funext a
  by_cases ha : a < 1152
  · have x := asInput_eq m hb p _ regs.1 regs.2 e (a / 192) (a % 192 / 16) (a % 16) (by omega) (by omega) (by omega)
    have x' := asInput_eq m' hb' p' _ regs'.1 regs'.2 e' (a / 192) (a % 192 / 16) (a % 16) (by omega) (by omega)
      (by omega)
    rw [show 192 * (a / 192) + 16 * (a % 192 / 16) + a % 16 = a by omega] at x x'
    rw [x, x', adcValue_congr (g := fun i => m'.byte (p' + 464 * (a % 192 / 16) + i)) _
      ((channel_range _).1 (by omega)) (fun i hi => by
        rw [Nat.add_assoc, same _ (by omega), ← Nat.add_assoc])]
  · unfold asInput
    rw [if_neg ha, if_neg ha]

theorem superchunk_congr (taps : Nat → Int) (pick : List TrigPrim → Option (TrigPrim × List TrigPrim))
    (c : TpHandler.Cfg) (m m' : Mem) (stamp stamp' : Nat → Nat) (s : LinkTp.St) (p p' : Nat) (junk : Nat → V)
    (q : Push) (hp : p + 5576 ≤ m.size) (hp' : p' + 5576 ≤ m'.size) (hi : inp m p = inp m' p')
    (hst : stamp p = stamp' p') :
    superchunk taps pick c m stamp s p junk q = superchunk taps pick c m' stamp' s p' junk q := by
  obtain ⟨regs, e, h⟩ := expand_inp m p hp junk
  obtain ⟨regs', e', h'⟩ := expand_inp m' p' hp' junk
  unfold superchunk
  rw [e, e', Outcome.bind_ok, Outcome.bind_ok]
  dsimp only
  rw [h, h', hi, hst]

/-- The calls one by one are the run over superchunks laid out in memory. -/
theorem feed_run (taps : Nat → Int) (pick : List TrigPrim → Option (TrigPrim × List TrigPrim))
    (c : TpHandler.Cfg) (stamp : (Nat → Nat) → Nat) (m : Mem) (hb : Bytes m.byte) (stamp' : Nat → Nat)
    (junk : Nat → Nat → V) (push : Nat → Push) : ∀ (l : List ((Nat → Nat) × Aside)) (ps : List Nat) (k : Nat)
    (s : LinkTp.St), l.length = ps.length → (∀ (i p : Nat) (x : (Nat → Nat) × Aside), ps[i]? = some p →
      l[i]? = some x → p + 5576 ≤ m.size ∧ (∀ j, j < 5568 → m.byte (p + j) = x.1 j) ∧ stamp' p = stamp x.1 ∧
        Bytes x.1 ∧ junk (k + i) = x.2.junk ∧ push (k + i) = x.2.push) →
    feed (findCollectionHits taps pick c stamp) s l = run taps pick c m stamp' junk push k s ps
  | [], [], _, _, _, _ => rfl
  | [], _ :: _, _, _, h, _ => by simp at h
  | _ :: _, [], _, _, h, _ => by simp at h
  | x :: l, p :: ps, k, s, hl, h => by
    obtain ⟨h1, h2, h3, h4, h5, h6⟩ := h 0 p x rfl rfl
    rw [Nat.add_zero] at h5 h6
    have e : findCollectionHits taps pick c stamp s x.1 x.2
        = superchunk taps pick c m stamp' s p (junk k) (push k) := by
      unfold findCollectionHits
      rw [h5, h6]
      refine superchunk_congr taps pick c _ m _ stamp' s 0 p _ _ (by simp [slotMem]) h1 ?_ h3.symm
      refine inp_congr _ m ?_ hb 0 p (by simp [slotMem]) h1 ?_
      · intro i
        show (if i < 5568 then x.1 i else x.2.behind i % 256) < 256
        split
        · exact h4 i
        · exact Nat.mod_lt _ (by decide)
      · intro i hi
        show (if 0 + i < 5568 then x.1 (0 + i) else _) = _
        rw [Nat.zero_add, if_pos hi, h2 i hi]
    unfold feed run
    rw [e]
    congr 1
    funext s'
    exact feed_run taps pick c stamp m hb stamp' junk push l ps (k + 1) s' (by simpa using hl)
      (fun i q y hq hy => by
        have := h (i + 1) q y (by simpa using hq) (by simpa using hy)
        rwa [show k + (i + 1) = k + 1 + i by omega] at this)

theorem layout_bytes (l : List (Nat → Nat)) (h : ∀ p ∈ l, Bytes p) : Bytes (layout l).byte := by
  intro a
  show (l.getD (a / 5568) fun _ => 0) (a % 5568) < 256
  rw [List.getD_eq_getElem?_getD]
  cases hl : l[a / 5568]? with
  | none => simp
  | some v => exact h v (List.mem_of_getElem? hl) _

/-- Payloads processed one by one, with room for all of them. -/
theorem straight {cfg : TpRuns.Cfg} {start : σ → Prop} {f : σ → P → ι → Outcome σ} (hq1 : 1 ≤ cfg.qcap) :
    ∀ (l : List (P × ι)) (s : TpRuns.St P σ ι) (t : σ), Reach cfg start f s → s.ph = .running → s.c = .idle →
      s.hand = none → s.q = [] → s.tDone = false → s.cl = none → s.r ≤ s.w → s.w - s.r + l.length ≤ cfg.n - 1 →
      feed f s.tp l = .ok t →
      ∃ s', Reach cfg start f s' ∧ s'.ph = .running ∧ s'.c = .idle ∧ s'.hand = none ∧ s'.q = [] ∧
        s'.tDone = false ∧ s'.cl = none ∧ s'.tp = t ∧ s'.recv = s.recv ++ l.map (·.1) ∧ s'.refused = s.refused ∧
        s'.lost = s.lost
  | [], s, t, h, h1, h2, h3, h4, h5, h6, _, _, he => by
    injection he with he
    exact ⟨s, h, h1, h2, h3, h4, h5, h6, he, by simp, rfl, rfl⟩
  | x :: l, s, t, h, h1, h2, h3, h4, h5, h6, h7, h8, he => by
    unfold feed at he
    rw [List.length_cons] at h8
    cases hx : f s.tp x.1 x.2 with
    | ub w => rw [hx, Outcome.bind_ub] at he; cases he
    | throws w => rw [hx, Outcome.bind_throws] at he; cases he
    | ok u =>
      rw [hx, Outcome.bind_ok] at he
      have a1 := Reach.step _ _ h (.arrive _ x.1 h2)
      have a2 := Reach.step _ _ a1 (.beginWrite _ x.1 x.1 rfl)
      have e2 : beginWrite cfg (arrive s x.1) x.1 x.1 = { arrive s x.1 with
          c := .writing x.1, mem := store s.mem (s.w % cfg.n) x.1, hand := none } := by
        unfold beginWrite
        rw [if_pos (show (arrive s x.1).w - (arrive s x.1).r < cfg.n - 1 by show s.w - s.r < _; omega)]
        have ha : (arrive s x.1).hand = none := h3
        rw [ha]; rfl
      rw [e2] at a2
      have a3 := Reach.step _ _ a2 (.endWrite _ x.1 rfl)
      have a4 := Reach.step _ _ a3 (.postBack _ rfl)
      unfold postBack at a4
      rw [if_pos (by show s.q.length < _; rw [h4]; exact hq1)] at a4
      unfold back at a4
      rw [if_neg (by show s.w + 1 ≠ s.r; omega)] at a4
      have a5 := Reach.step _ _ a4 (.take _ (some (s.w % cfg.n)) [] h5 rfl (by
        show s.q ++ [some ((s.w + 1 - 1) % cfg.n)] = _
        rw [h4, Nat.add_sub_cancel]; rfl))
      have a6 := Reach.step _ _ a5 (.call _ (s.w % cfg.n) false x.1 x.2 u rfl (by
        intro _
        show x.1 = store (store s.mem (s.w % cfg.n) x.1) (s.w % cfg.n) x.1 (s.w % cfg.n)
        rw [store, if_pos rfl]) hx)
      obtain ⟨s', b1, b2, b3, b4, b5, b6, b7, b8, b9, b10, b11⟩ := straight hq1 l _ t a6 h1 rfl rfl rfl h5 h6
        (by show s.r ≤ s.w + 1; omega) (by show s.w + 1 - s.r + l.length ≤ _; omega) he
      refine ⟨s', b1, b2, b3, b4, b5, b6, b7, b8, ?_, b10, b11⟩
      rw [b9]
      show s.recv ++ [x.1] ++ _ = _
      simp

/-- Every sequence of payloads the function can process is a run of a link with enough room. -/
theorem straight_run {cfg : TpRuns.Cfg} {start : σ → Prop} {f : σ → P → ι → Outcome σ} (hq1 : 1 ≤ cfg.qcap)
    (l : List (P × ι)) (hn : l.length ≤ cfg.n - 1) (p : P) (tp t : σ) (ht : start tp) (he : feed f tp l = .ok t) :
    ∃ s, Reach cfg start f s ∧ ∃ e ∈ s.ended, e.refused = 0 ∧ e.lost = 0 ∧ e.recv = l.map (·.1) ∧ e.tp = t := by
  have r0 : Reach cfg start f (.init (fun _ => p) tp) := .init _ _
  have r1 := Reach.step _ _ r0 (.start _ tp rfl ht)
  obtain ⟨s, b1, b2, b3, b4, b5, b6, b7, b8, b9, b10, b11⟩ := straight hq1 l _ t r1 rfl rfl rfl rfl rfl rfl
    (Nat.le_refl _) (by show 0 - 0 + l.length ≤ _; omega) he
  have r2 := Reach.step _ _ b1 (.stop _ b2)
  have r3 := Reach.step _ _ r2 (.leave _ b3 rfl)
  have r4 := Reach.step _ _ r3 (.flush _ rfl rfl b7)
  have r5 := Reach.step _ _ r4 (.postStop _ rfl)
  have r6 := Reach.step _ _ r5 (.postLeave _ b5 b4 rfl)
  have r7 := Reach.step _ _ r6 (.ret _ rfl rfl)
  exact ⟨_, r7, _, List.mem_append_right _ List.mem_cons_self, b10, b11, b9, b8⟩

/-- **C94 (trigger primitives, partial)** On a WIB link, at the end of every run in which nothing was refused and
whose superchunks were 300 ticks apart, the trigger primitives sent in sets or still pending are, for every
electronics channel of the collection plane, exactly those of the signals in the superchunks received in this run
and reported in time, each once, with times, duration and charge taken from the samples; none has another channel;
all other signals are counted as dropped and all are counted as found. So nothing of earlier runs, of the reuse of
the buffer or of the threads' timing shows. Missing: as in C94 and C89. -/
theorem C94_trigger_primitives_partial (cfg : TpRuns.Cfg) (hc : Leaves cfg) (taps : Nat → Int) (h7 : taps 7 = 0)
    (pick : List TrigPrim → Option (TrigPrim × List TrigPrim)) (hp : PickSpec TpChain.start pick)
    (c : TpHandler.Cfg) (hw0 : 0 < c.window) (stamp : (Nat → Nat) → Nat) (s : TpRuns.St (Nat → Nat) LinkTp.St Aside)
    (h : Reach cfg fresh (findCollectionHits taps pick c stamp) s) (e : Ended (Nat → Nat) LinkTp.St Aside)
    (he : e ∈ s.ended) (hr : e.refused = 0) (hl : e.lost = 0) (hb : ∀ p ∈ e.recv, Bytes p) (ts : Nat)
    (hst : ∀ (i : Nat) (p : Nat → Nat), e.recv[i]? = some p → stamp p = ts + 300 * i)
    (hts : ts + 300 * e.recv.length + c.window + c.timeout < 9223372036854775808) :
    (∀ k, k < 96 → ((held e.tp.tps).filter fun t => t.channel == collTable.getD k 0).Perm
        (((signals taps (layout e.recv) (places e.recv.length) k).filter
          (timely taps (layout e.recv) (places e.recv.length) c.timeout k)).map
            (prim taps (layout e.recv) (places e.recv.length) ts k))) ∧
    (∀ t ∈ held e.tp.tps, t.channel ∈ collTable) ∧
    e.tp.tps.dropped = ((List.range 96).map fun k =>
      ((signals taps (layout e.recv) (places e.recv.length) k).filter fun x =>
        !timely taps (layout e.recv) (places e.recv.length) c.timeout k x).length).sum ∧
    e.tp.tps.found = ((List.range 96).map fun k =>
      (signals taps (layout e.recv) (places e.recv.length) k).length).sum := by
  obtain ⟨h1, ⟨old, ho, h2⟩, h3⟩ := C94_run_partial cfg hc fresh _ s h e he hr hl
  rw [h2] at h3
  have hplace : ∀ (i p : Nat), (places e.recv.length)[i]? = some p → i < e.recv.length ∧ p = 5568 * i := by
    intro i p hip
    unfold places at hip
    rw [List.getElem?_map, Option.map_eq_some_iff] at hip
    obtain ⟨j, hj, rfl⟩ := hip
    obtain ⟨hj', rfl⟩ := List.getElem?_eq_some_iff.1 hj
    rw [List.length_range] at hj'
    rw [List.getElem_range]
    exact ⟨hj', rfl⟩
  let dflt : Aside := ⟨fun _ _ => 0, ⟨fun _ => true, true⟩, fun _ => 0⟩
  have key := feed_run taps pick c stamp (layout e.recv) (layout_bytes _ hb) (stampAt stamp e.recv)
    (fun k => (e.used.getD k dflt).junk) (fun k => (e.used.getD k dflt).push) (e.recv.zip e.used)
    (places e.recv.length) 0 (atStart old) (by simp [places, h1]) (by
      intro i p x hip hx
      obtain ⟨hi, rfl⟩ := hplace i p hip
      rw [List.getElem?_zip_eq_some] at hx
      obtain ⟨hx1, hx2⟩ := hx
      refine ⟨?_, ?_, ?_, hb _ (List.mem_of_getElem? hx1), ?_, ?_⟩
      · show 5568 * i + 5576 ≤ 5568 * e.recv.length + 8
        omega
      · intro j hj
        show (e.recv.getD ((5568 * i + j) / 5568) fun _ => 0) ((5568 * i + j) % 5568) = x.1 j
        rw [show (5568 * i + j) / 5568 = i by omega, show (5568 * i + j) % 5568 = j by omega,
          List.getD_eq_getElem?_getD, hx1]
        rfl
      · unfold stampAt
        rw [show 5568 * i / 5568 = i by omega, List.getD_eq_getElem?_getD, hx1]
        rfl
      · rw [Nat.zero_add, List.getD_eq_getElem?_getD, hx2]; rfl
      · rw [Nat.zero_add, List.getD_eq_getElem?_getD, hx2]; rfl)
  obtain ⟨s', e', k1, k2, k3, k4⟩ := C89_bytes_to_tps_partial taps h7 old ho (layout e.recv) (layout_bytes _ hb)
    (places e.recv.length) (by
      intro p hp
      obtain ⟨i, hi⟩ := List.getElem?_of_mem hp
      obtain ⟨hi, rfl⟩ := hplace i p hi
      show 5568 * i + 5576 ≤ 5568 * e.recv.length + 8
      omega) (fun k => (e.used.getD k dflt).junk) pick hp c hw0 (fun k => (e.used.getD k dflt).push)
    (stampAt stamp e.recv) ts (by
      intro i p hip
      obtain ⟨hi, rfl⟩ := hplace i p hip
      unfold stampAt
      rw [show 5568 * i / 5568 = i by omega, List.getD_eq_getElem?_getD, List.getElem?_eq_getElem hi]
      exact hst i _ (List.getElem?_eq_getElem hi)) (by simpa [places] using hts)
  rw [h3] at key
  have : Outcome.ok e.tp = Outcome.ok s' := key.trans e'
  injection this with this
  subst this
  exact ⟨k1, k2, k3, k4⟩

/-- Samples with a pulse, and a small bump after it. -/
def bump : List Int := TpChain.latePulse.set 30 103

/-- Three superchunks with these samples on channel 16, and a decoder of timestamps that suits them. -/
def bumpChunk (j : Nat) : Nat → Nat := fun i => packFrame (waveValue bump (12 * j + i / 464)) (i % 464)
def bumpStamp (v : Nat → Nat) : Nat :=
  1000000 + if v 1912 ≠ bumpChunk 0 1912 then 300 else if v 2840 ≠ bumpChunk 0 2840 then 600 else 0

theorem bump_stamps : ∀ j : Fin 3, bumpStamp (bumpChunk j) = 1000000 + 300 * j := by decide +kernel

theorem bump_le : ∀ x ∈ bump, x ≤ 4095 := by decide

theorem bump_signals : signals fir (wave bump) (places 3) 0 = [25] := by
  unfold signals
  rw [wave_ped _ bump_le 2 0, wave_stream _ bump_le 3 _ (by decide)]
  decide +kernel

/-- A link with a run of these superchunks, whose signal is found. -/
example : ∃ s, Reach small fresh (findCollectionHits fir TpChain.pickTp ⟨100000, 10000⟩ bumpStamp) s ∧
    ∃ e ∈ s.ended, e.refused = 0 ∧ e.lost = 0 ∧ e.recv.length = 3 ∧ (∀ p ∈ e.recv, Bytes p) ∧
      (∀ (i : Nat) (p : Nat → Nat), e.recv[i]? = some p → bumpStamp p = 1000000 + 300 * i) ∧
      1 ≤ e.tp.tps.found := by
  let side : Aside := ⟨fun _ _ => 0, ⟨fun _ => true, true⟩, fun _ => 0⟩
  let l : List ((Nat → Nat) × Aside) := [(bumpChunk 0, side), (bumpChunk 1, side), (bumpChunk 2, side)]
  have hbytes : ∀ j, Bytes (bumpChunk j) := fun j i => packFrame_byte _ _
  obtain ⟨s', e', -, -, -, k4⟩ := C89_bytes_to_tps_partial fir rfl freshBuf freshBuf_length (wave bump)
    (fun i => packFrame_byte _ _) (places 3) (places_fit _ 3 (by decide)) (fun _ => side.junk) TpChain.pickTp
    (TpHandler.pickMin_spec TpChain.start) ⟨100000, 10000⟩ (by decide) (fun _ => side.push) clock 1000000
    (clock_places 3) (by decide)
  have key := feed_run fir TpChain.pickTp ⟨100000, 10000⟩ bumpStamp (wave bump) (fun i => packFrame_byte _ _) clock
    (fun _ => side.junk) (fun _ => side.push) l (places 3) 0 (atStart freshBuf) rfl (by
      intro i p x hip hx
      have hi : i < 3 := by
        have := (List.getElem?_eq_some_iff.1 hx).1
        exact this
      have hp : p = 5568 * i ∧ x = (bumpChunk i, side) := by
        have : i = 0 ∨ i = 1 ∨ i = 2 := by omega
        rcases this with rfl | rfl | rfl <;>
          · injection hip with hip
            injection hx with hx
            exact ⟨hip.symm, hx.symm⟩
      obtain ⟨rfl, rfl⟩ := hp
      refine ⟨places_fit bump 3 (by decide) _ (List.mem_of_getElem? hip), ?_, ?_, hbytes _, rfl, rfl⟩
      · intro j hj
        show packFrame (waveValue bump ((5568 * i + j) / 464)) ((5568 * i + j) % 464) = bumpChunk i j
        unfold bumpChunk
        rw [show (5568 * i + j) / 464 = 12 * i + j / 464 by omega, show (5568 * i + j) % 464 = j % 464 by omega]
      · rw [bump_stamps ⟨i, hi⟩]
        exact clock_places 3 i _ hip)
  obtain ⟨s, h, e, he, h1, h2, h3, h4⟩ := straight_run (cfg := small) (start := fresh) (by decide) l (by decide)
    (bumpChunk 0) (atStart freshBuf) s' ⟨freshBuf, freshBuf_length, rfl⟩ (key.trans e')
  refine ⟨s, h, e, he, h1, h2, by rw [h3]; rfl, ?_, ?_, ?_⟩
  · rw [h3]
    intro p hp
    simp [l] at hp
    rcases hp with rfl | rfl | rfl <;> exact hbytes _
  · rw [h3]
    intro i p hip
    have hm : l.map (·.1) = (List.range 3).map bumpChunk := rfl
    rw [hm, List.getElem?_map, Option.map_eq_some_iff] at hip
    obtain ⟨j, hj, rfl⟩ := hip
    obtain ⟨hi, rfl⟩ := List.getElem?_eq_some_iff.1 hj
    rw [List.getElem_range]
    rw [List.length_range] at hi
    exact bump_stamps ⟨i, hi⟩
  · rw [h4, k4, List.range_eq_range', show (96 : Nat) = 95 + 1 from rfl, List.range'_succ, List.map_cons,
      List.sum_cons, bump_signals, List.length_singleton]
    omega

end Verif.TpRuns
