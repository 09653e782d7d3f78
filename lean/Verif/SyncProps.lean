import Verif.SyncModel
import Mathlib.Data.List.Basic
/- Property C79: time synchronisation messages. -/
namespace Verif.Sync

/-- The newest of the first `i` timestamps, 0 if there is none. -/
def newest (l : List Nat) (i : Nat) : Nat := (l.take i).getLast?.getD 0

structure Inv (s : St) : Prop where
  last : s.phase ≠ .idle → s.last = newest (s.log s.run) (s.log s.run).length
  idle : s.phase = .idle → s.last = 0 ∧ s.sync = false ∧ s.consumer = false
  stale : s.sync = false → s.held = none
  fut : ∀ r, s.run < r → s.log r = []
  held : ∀ v i, s.held = some (v, i) → i ≤ (s.log s.run).length ∧ v = newest (s.log s.run) i ∧
    ∀ m ∈ s.sent, m.run = s.run → m.idx ≤ i
  sent : ∀ m ∈ s.sent, m.run ≤ s.run ∧ m.idx ≤ (s.log m.run).length ∧ m.ts ≠ 0 ∧
    m.ts = newest (s.log m.run) m.idx
  ord : s.sent.Pairwise (fun a b => a.run ≤ b.run ∧ (a.run = b.run → a.idx ≤ b.idx))

theorem newest_append (l : List Nat) (i t : Nat) (h : i ≤ l.length) :
    newest (l ++ [t]) i = newest l i := by
  rw [newest, newest, List.take_append_of_le_length h]

theorem newest_all (l : List Nat) (t : Nat) : newest (l ++ [t]) (l ++ [t]).length = t := by
  rw [newest, List.take_length]; simp

theorem inv_reach {s : St} (h : Reach true s) : Inv s := by
  induction h with
  | init =>
    exact ⟨fun h => absurd rfl h, fun _ => ⟨rfl, rfl, rfl⟩, fun _ => rfl, fun _ _ => rfl,
      fun _ _ h => (by cases h), fun _ h => (by cases h), List.Pairwise.nil⟩
  | step s s' _ st ih =>
    cases st with
    | start hp =>
      obtain ⟨a, b, c⟩ := ih.idle hp
      refine ⟨fun _ => ?_, fun h => (by cases h), fun h => (by cases h), fun r hr => ih.fut r (by dsimp only at hr; omega),
        ?_, fun m hm => ⟨by have := (ih.sent m hm).1; simp only; omega, (ih.sent m hm).2⟩, ih.ord⟩
      · simp only [a, ih.fut (s.run + 1) (by omega)]; rfl
      · intro v i hv
        simp only [ih.stale b] at hv; cases hv
    | process ts hc =>
      have hne : s.phase ≠ .idle := fun h => by have := (ih.idle h).2.2; rw [this] at hc; cases hc
      refine ⟨fun _ => ?_, fun h => absurd h hne, ih.stale, fun r hr => ?_, fun v i hv => ?_, fun m hm => ?_, ih.ord⟩
      · simp only [if_true, newest_all]
      · simp only at hr ⊢; rw [if_neg (by omega)]; exact ih.fut r hr
      · obtain ⟨a, b, c⟩ := ih.held v i hv
        simp only [if_true]
        exact ⟨by simp; omega, by rw [newest_append _ _ _ a]; exact b, c⟩
      · obtain ⟨a, b, c, d⟩ := ih.sent m hm
        simp only
        by_cases hr : m.run = s.run
        · rw [if_pos hr]
          exact ⟨a, by simp; omega, c, by rw [newest_append _ _ _ b]; exact d⟩
        · rw [if_neg hr]; exact ⟨a, b, c, d⟩
    | read hs hh =>
      have hne : s.phase ≠ .idle := fun h => by have := (ih.idle h).2.1; rw [this] at hs; cases hs
      refine ⟨ih.last, ih.idle, fun h => (by rw [hs] at h; cases h), ih.fut, fun v i hv => ?_, ih.sent, ih.ord⟩
      simp only [Option.some.injEq, Prod.mk.injEq] at hv
      obtain ⟨rfl, rfl⟩ := hv
      refine ⟨Nat.le_refl _, ih.last hne, fun m hm hr => ?_⟩
      rw [← hr]; exact (ih.sent m hm).2.1
    | push v i hs hh =>
      obtain ⟨a, b, c⟩ := ih.held v i hh
      refine ⟨ih.last, ih.idle, fun _ => rfl, ih.fut, fun _ _ h => (by cases h), fun m hm => ?_, ?_⟩
      · simp only at hm
        split at hm
        · rcases List.mem_append.1 hm with hm | hm
          · exact ih.sent m hm
          · simp only [List.mem_singleton] at hm
            subst hm
            exact ⟨Nat.le_refl _, a, by assumption, b⟩
        · exact ih.sent m hm
      · simp only
        split
        · rw [List.pairwise_append]
          refine ⟨ih.ord, List.pairwise_singleton _ _, fun x hx y hy => ?_⟩
          simp only [List.mem_singleton] at hy
          subst hy
          exact ⟨(ih.sent x hx).1, fun he => c x hx he⟩
        · exact ih.ord
    | stop hp =>
      exact ⟨fun _ => ih.last (by rw [hp]; decide), fun h => (by cases h), ih.stale, ih.fut, ih.held, ih.sent, ih.ord⟩
    | syncEnd hp hs hh =>
      exact ⟨ih.last, fun h => (by simp only [hp] at h; cases h), fun _ => hh, ih.fut, ih.held, ih.sent, ih.ord⟩
    | consEnd hp hs =>
      exact ⟨ih.last, fun h => (by simp only [hp] at h; cases h), ih.stale, ih.fut, ih.held, ih.sent, ih.ord⟩
    | finish hp h1 h2 =>
      exact ⟨fun h => absurd rfl h, fun _ => ⟨rfl, h1, h2⟩, ih.stale, ih.fut, ih.held, ih.sent, ih.ord⟩

/-- **C79** Over any number of runs, every time synchronisation message carries a non-zero timestamp, that
of the payload of the same run which was the newest processed when the value was read (payload number
`idx` of the run, counted from 1). -/
theorem C79_sync_newest_of_run (s : St) (h : Reach true s) (m : Msg) (hm : m ∈ s.sent) :
    m.ts ≠ 0 ∧ 1 ≤ m.idx ∧ (s.log m.run)[m.idx - 1]? = some m.ts := by
  obtain ⟨a, b, c, d⟩ := (inv_reach h).sent m hm
  have h1 : 1 ≤ m.idx := by
    rcases Nat.eq_zero_or_pos m.idx with h0 | h0
    · rw [h0] at d; exact absurd d c
    · exact h0
  refine ⟨c, h1, ?_⟩
  rw [d, newest, List.getLast?_take, if_neg (by omega)]
  cases hq : (s.log m.run)[m.idx - 1]? with
  | none => rw [List.getElem?_eq_none_iff] at hq; omega
  | some x => simp

/-- Reading order: within a run the payload numbers of the messages never go back. -/
theorem C79_sync_ordered (s : St) (h : Reach true s) (i j : Nat) (a b : Msg) (hij : i < j)
    (ha : s.sent[i]? = some a) (hb : s.sent[j]? = some b) :
    a.run ≤ b.run ∧ (a.run = b.run → a.idx ≤ b.idx) := by
  obtain ⟨hi, rfl⟩ := List.getElem?_eq_some_iff.1 ha
  obtain ⟨hj, rfl⟩ := List.getElem?_eq_some_iff.1 hb
  exact List.pairwise_iff_getElem.1 (inv_reach h).ord i j hi hj hij

/-- **C79 (monotone)** If the payloads of a run are processed in time order, so are its messages. -/
theorem C79_sync_monotone (s : St) (h : Reach true s) (r : Nat) (hr : (s.log r).Pairwise (· ≤ ·))
    (i j : Nat) (a b : Msg) (hij : i < j) (ha : s.sent[i]? = some a) (hb : s.sent[j]? = some b)
    (har : a.run = r) (hbr : b.run = r) : a.ts ≤ b.ts := by
  have ho := (C79_sync_ordered s h i j a b hij ha hb).2 (by rw [har, hbr])
  obtain ⟨-, a1, a2⟩ := C79_sync_newest_of_run s h a (List.mem_of_getElem? ha)
  obtain ⟨-, b1, b2⟩ := C79_sync_newest_of_run s h b (List.mem_of_getElem? hb)
  rw [har] at a2; rw [hbr] at b2
  rcases Nat.eq_or_lt_of_le ho with he | hlt
  · rw [he, b2] at a2
    exact Nat.le_of_eq (Option.some.inj a2).symm
  · obtain ⟨ha', ea⟩ := List.getElem?_eq_some_iff.1 a2
    obtain ⟨hb', eb⟩ := List.getElem?_eq_some_iff.1 b2
    have := List.pairwise_iff_getElem.1 hr (a.idx - 1) (b.idx - 1) ha' hb' (by omega)
    rw [ea, eb] at this; exact this

/-- Two runs; in the second one the first reading comes before any payload and is not sent. -/
theorem demo : ∃ s, Reach true s ∧ s.sent = [⟨1, 2, 1300⟩, ⟨2, 1, 700⟩] ∧ s.log 1 = [1000, 1300] ∧
    s.log 2 = [700] := by
  have r0 : Reach true _ := .init
  have r1 := Reach.step _ _ r0 (.start _ rfl)
  have r2 := Reach.step _ _ r1 (.process _ 1000 rfl)
  have r3 := Reach.step _ _ r2 (.process _ 1300 rfl)
  have r4 := Reach.step _ _ r3 (.read _ rfl rfl)
  have r5 := Reach.step _ _ r4 (.push _ _ _ rfl rfl)
  have r6 := Reach.step _ _ r5 (.stop _ rfl)
  have r7 := Reach.step _ _ r6 (.syncEnd _ rfl rfl rfl)
  have r8 := Reach.step _ _ r7 (.consEnd _ rfl rfl)
  have r9 := Reach.step _ _ r8 (.finish _ rfl rfl rfl)
  have s1 := Reach.step _ _ r9 (.start _ rfl)
  have s2 := Reach.step _ _ s1 (.read _ rfl rfl)
  have s3 := Reach.step _ _ s2 (.push _ _ _ rfl rfl)
  have s4 := Reach.step _ _ s3 (.process _ 700 rfl)
  have s5 := Reach.step _ _ s4 (.read _ rfl rfl)
  have s6 := Reach.step _ _ s5 (.push _ _ _ rfl rfl)
  exact ⟨_, s6, rfl, rfl, rfl⟩

example : ∃ s m, Reach true s ∧ m ∈ s.sent ∧ (s.log m.run).Pairwise (· ≤ ·) := by
  obtain ⟨s, h, h1, h2, h3⟩ := demo
  exact ⟨s, ⟨1, 2, 1300⟩, h, by rw [h1]; simp, by rw [h2]; decide⟩

/-- **Links of trigger primitives** (processors without timestamp stage) never send a message, however
many payloads they process. -/
theorem C79_tp_links_silent (s : St) (h : Reach false s) : s.sent = [] := by
  have : s.sent = [] ∧ s.last = 0 ∧ ∀ v i, s.held = some (v, i) → v = 0 := by
    induction h with
    | init => exact ⟨rfl, rfl, fun _ _ h => (by cases h)⟩
    | step s s' _ st ih =>
      obtain ⟨a, b, c⟩ := ih
      cases st with
      | start hp => exact ⟨a, b, c⟩
      | process ts hc => exact ⟨a, by simp [b], c⟩
      | read hs hh =>
        refine ⟨a, b, fun v i hv => ?_⟩
        simp only [Option.some.injEq, Prod.mk.injEq] at hv
        rw [← hv.1]; exact b
      | push v i hs hh =>
        refine ⟨?_, b, fun _ _ h => (by cases h)⟩
        simp [c v i hh, a]
      | stop hp => exact ⟨a, b, c⟩
      | syncEnd hp hs hh => exact ⟨a, b, c⟩
      | consEnd hp hs => exact ⟨a, b, c⟩
      | finish hp h1 h2 => exact ⟨a, rfl, c⟩
  exact this.1

example : ∃ s, Reach false s ∧ s.log 1 = [1000] ∧ s.held.isSome := by
  have r1 := Reach.step _ _ (Reach.init (tracks := false)) (.start _ rfl)
  have r2 := Reach.step _ _ r1 (.process _ 1000 rfl)
  have r3 := Reach.step _ _ r2 (.read _ rfl rfl)
  exact ⟨_, r3, rfl, rfl⟩

end Verif.Sync
