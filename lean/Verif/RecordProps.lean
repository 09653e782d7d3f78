import Verif.RecordModel
import Verif.RingLemmas
import Verif.SearchProps
import Verif.DataReqProps
/- Properties C25-C27 and C58: raw recording. -/
namespace Verif.Record
open Verif.Ring Verif.Search
open Verif.DataReq (PayloadType)
variable {P : Type}

theorem inc_prev {q : Ring P} {l : List P} (h : Repr q l) (it : Nat)
    (hit : it < q.size) (hn : nextIdx q.size it = q.rd) (hs : q.size ≤ endIdx) :
    q.good it = false := by
  rw [Bool.eq_false_iff]
  intro hg
  obtain ⟨k, hk, e⟩ := (h.occupied hs it hit).1 hg
  have h2 := h.rdlt; have h3 := h.len
  simp only [slotIdx, nextIdx] at *
  split at hn <;> split at e <;> omega

/-- The iterator of the recording thread: at the end; at a stored payload which is the next to be
recorded or the last recorded; or at the last recorded payload which has just been discarded. -/
def ItOk (q : Ring P) (l : List P) (base todo it : Nat) : Prop :=
  it = endIdx ∨
  (∃ k, k < l.length ∧ it = slotIdx q.size q.rd k ∧ base + k ≤ todo ∧ todo ≤ base + k + 1) ∨
  (it < q.size ∧ nextIdx q.size it = q.rd ∧ base = todo)

/-- Invariant once the recording position is known: everything from position `st` up to (not
including) `todo` is in the file, nothing from `todo` on has been discarded. -/
structure Pos (T : PayloadType P) (s : St P) (l : List P) (base st todo : Nat) : Prop where
  le : st ≤ todo
  file : s.file = (s.all.drop st).take (todo - st)
  flen : s.file.length = todo - st
  nopop : base ≤ todo
  next0 : todo = st → ∃ a, s.all[st]? = some a ∧ s.next = T.ts a
  next1 : st < todo → ∃ a, s.all[todo - 1]? = some a ∧ s.next = T.ts a + span T a
  it : match s.pc with
    | .start => True
    | .search => True
    | .test it _ => ItOk s.q l base todo it
    | .body it _ => ItOk s.q l base todo it ∧ it ≠ endIdx

structure Inv (T : PayloadType P) (s : St P) (l : List P) (base : Nat) : Prop where
  repr : Repr s.q l
  size : s.q.size ≤ endIdx
  ord : s.all.Pairwise (fun a b => T.ts a + span T a ≤ T.ts b)
  pos0 : ∀ a ∈ s.all, 0 < T.ts a
  sto : l = s.all.drop base
  ble : base ≤ s.all.length
  cases : (s.next = 0 ∧ s.file = [] ∧
      (match s.pc with | .test it _ => it = endIdx | .body _ _ => False | _ => True)) ∨
    (∃ st todo, Pos T s l base st todo)

theorem ord_get {T : PayloadType P} {l : List P}
    (h : l.Pairwise (fun a b => T.ts a + span T a ≤ T.ts b)) {i j : Nat} {a b : P} (hij : i < j)
    (ha : l[i]? = some a) (hb : l[j]? = some b) : T.ts a + span T a ≤ T.ts b := by
  obtain ⟨h1, e1⟩ := List.getElem?_eq_some_iff.1 ha
  obtain ⟨h2, e2⟩ := List.getElem?_eq_some_iff.1 hb
  have := List.pairwise_iff_getElem.1 h i j h1 h2 hij
  rw [e1, e2] at this; exact this

theorem ord_sorted {T : PayloadType P} {l : List P}
    (h : l.Pairwise (fun a b => T.ts a + span T a ≤ T.ts b)) : Sorted T.ts l := by
  intro i j a b hij ha hb
  rcases Nat.lt_or_ge i j with h' | h'
  · have := ord_get h h' ha hb; omega
  · have : i = j := by omega
    subst this; rw [ha] at hb; injection hb with e; rw [e]; exact Nat.le_refl _

theorem slot_shift {q : Ring P} {l : List P} (h : Repr q l) (k : Nat) (hk : k + 1 < q.size) :
    slotIdx q.size (nextIdx q.size q.rd) k = slotIdx q.size q.rd (k + 1) := by
  have h2 := h.rdlt; have := h.two
  simp only [slotIdx, nextIdx]
  split <;> split <;> split <;> omega

theorem pop1 {q q' : Ring P} {a : P} {l : List P} (h : Repr q (a :: l)) (hp : q.pop 1 = .ok q') :
    Repr q' l ∧ q'.size = q.size ∧ q'.rd = nextIdx q.size q.rd := by
  obtain ⟨q1, e1, r1, s1, -, d1⟩ := popFront_ok h
  have : q.pop 1 = .ok q1 := by simp [Ring.pop, e1]
  rw [this] at hp; injection hp with hp; subst hp
  exact ⟨r1, s1, by rw [d1]⟩

theorem front_head {q : Ring P} {a : P} {l : List P} (h : Repr q l)
    (hf : q.derefPtr q.front = .ok a) : ∃ l', l = a :: l' := by
  cases l with
  | nil => have := h.rd_eq_wr.2 rfl; simp [Ring.front, this, Ring.derefPtr] at hf
  | cons b l' =>
    rw [DataReq.front_deref h (a := b) (by simp)] at hf
    injection hf with e; subst e; exact ⟨l', rfl⟩

/-- The payload due next has not been reached by the recording position. -/
theorem Pos.due {T : PayloadType P} {s : St P} {l : List P} {base st todo : Nat}
    (p : Pos T s l base st todo) (ord : s.all.Pairwise (fun a b => T.ts a + span T a ≤ T.ts b))
    {b : P} (hb : s.all[todo]? = some b) : s.next ≤ T.ts b := by
  rcases Nat.lt_or_ge st todo with h | h
  · obtain ⟨a, h1, h2⟩ := p.next1 h
    have := ord_get ord (show todo - 1 < todo by omega) h1 hb
    omega
  · have e : todo = st := by have := p.le; omega
    obtain ⟨a, h1, h2⟩ := p.next0 e
    rw [e] at hb; rw [h1] at hb; injection hb with hb; subst hb; omega

theorem inv_step {T : PayloadType P} (hsp : ∀ p, 0 < span T p) {limit : Nat} {toPop : Nat → Nat}
    {s s' : St P} {l : List P} {base : Nat} (inv : Inv T s l base) (st : Step T limit toPop s s') :
    ∃ l' base', Inv T s' l' base' ∧ s.all <+: s'.all ∧ base ≤ base' := by
  obtain ⟨repr, size, ord, pos0, sto, ble, cases⟩ := inv
  have hall : ∀ k, l[k]? = s.all[base + k]? := by intro k; rw [sto, List.getElem?_drop]
  have hlen : l.length = s.all.length - base := by rw [sto, List.length_drop]
  cases st with
  | record _ hp h =>
    refine ⟨l, base, ?_⟩
    have hq : s'.q = s.q ∧ s'.all = s.all := by
      unfold recStep at h
      split at h
      · split at h
        · split at h
          · injection h with h; subst h; exact ⟨rfl, rfl⟩
          · cases hd : s.q.derefPtr (some _) with
            | ok a => rw [hd] at h; simp at h; subst h; exact ⟨rfl, rfl⟩
            | ub w => rw [hd] at h; simp at h
            | throws w => rw [hd] at h; simp at h
        · injection h with h; subst h; exact ⟨rfl, rfl⟩
      · cases hd : lowerBound s.q T.ts s.next s.q.size with
        | ub w => rw [hd] at h; simp at h
        | throws w => rw [hd] at h; simp at h
        | ok r =>
          rw [hd] at h
          cases r with
          | none => simp at h
          | some it => simp at h; subst h; exact ⟨rfl, rfl⟩
      · split at h
        · injection h with h; subst h; exact ⟨rfl, rfl⟩
        · injection h with h; subst h; exact ⟨rfl, rfl⟩
      · cases hd : s.q.deref _ with
        | ub w => rw [hd] at h; simp at h
        | throws w => rw [hd] at h; simp at h
        | ok p =>
          rw [hd] at h
          simp only [Outcome.bind_ok] at h
          split at h <;> (injection h with h; subst h; exact ⟨rfl, rfl⟩)
    refine ⟨⟨by rw [hq.1]; exact repr, by rw [hq.1]; exact size, by rw [hq.2]; exact ord,
      by rw [hq.2]; exact pos0, by rw [hq.2]; exact sto, by rw [hq.2]; exact ble, ?_⟩,
      by rw [hq.2]; exact List.prefix_refl _, Nat.le_refl _⟩
    unfold recStep at h
    split at h
    · rename_i hpc
      split at h
      · rename_i hn0
        have hfile : s.file = [] ∨ ∃ st todo, Pos T s l base st todo := by
          rcases cases with c | c
          · exact Or.inl c.2.1
          · exact Or.inr c
        split at h
        · rename_i hfr
          injection h with h; subst h
          rcases cases with ⟨c1, c2, c3⟩ | ⟨st, todo, p⟩
          · left; exact ⟨rfl, c2, trivial⟩
          · right
            refine ⟨st, todo, p.le, p.file, p.flen, p.nopop, ?_, ?_, trivial⟩
            · intro e; obtain ⟨a, h1, h2⟩ := p.next0 e; exact ⟨a, h1, by rw [← h2, hn0]⟩
            · intro e; obtain ⟨a, h1, h2⟩ := p.next1 e; exact ⟨a, h1, by rw [← h2, hn0]⟩
        · rename_i i hfr
          cases hd : s.q.derefPtr (some i) with
          | ub w => rw [hd] at h; simp at h
          | throws w => rw [hd] at h; simp at h
          | ok a =>
            rw [hd] at h; simp at h; subst h
            rw [← hfr] at hd
            obtain ⟨l', e⟩ := front_head repr hd
            have ha : s.all[base]? = some a := by
              have := hall 0; rw [e] at this; simpa using this.symm
            rcases cases with ⟨c1, c2, c3⟩ | ⟨st, todo, p⟩
            · right
              refine ⟨base, base, Nat.le_refl _, by simp [c2], by simp [c2], Nat.le_refl _,
                fun _ => ⟨a, ha, rfl⟩, fun h => absurd h (Nat.lt_irrefl _), trivial⟩
            · exfalso
              rcases Nat.lt_or_ge st todo with hlt | hge
              · obtain ⟨b, h1, h2⟩ := p.next1 hlt
                have := pos0 b (List.mem_of_getElem? h1); omega
              · obtain ⟨b, h1, h2⟩ := p.next0 (by have := p.le; omega)
                have := pos0 b (List.mem_of_getElem? h1); omega
      · injection h with h; subst h
        rcases cases with ⟨c1, c2, c3⟩ | ⟨st, todo, p⟩
        · left; exact ⟨c1, c2, trivial⟩
        · right; exact ⟨st, todo, p.le, p.file, p.flen, p.nopop, p.next0, p.next1, trivial⟩
    · rename_i hpc
      cases hd : lowerBound s.q T.ts s.next s.q.size with
      | ub w => rw [hd] at h; simp at h
      | throws w => rw [hd] at h; simp at h
      | ok r =>
        rw [hd] at h
        cases r with
        | none => simp at h
        | some it =>
          simp at h; subst h
          have hsort : Sorted T.ts l := by
            rw [sto]; exact ord_sorted (ord.sublist (List.drop_sublist _ _))
          have hc7 := C07_binary_search T.ts s.q l repr hsort s.next s.q.size
            (Nat.le_of_lt repr.len)
          rcases hc7 with ⟨-, e⟩ | ⟨⟨a0, ha0, hle0⟩, k, e, hcov⟩
          · rw [hd] at e; injection e with e; injection e with e; subst e
            rcases cases with ⟨c1, c2, c3⟩ | ⟨st, todo, p⟩
            · left; exact ⟨c1, c2, rfl⟩
            · right
              exact ⟨st, todo, p.le, p.file, p.flen, p.nopop, p.next0, p.next1, Or.inl rfl⟩
          · rw [hd] at e; injection e with e; injection e with e; subst e
            rcases cases with ⟨c1, c2, c3⟩ | ⟨st, todo, p⟩
            · exfalso
              have hm : a0 ∈ s.all := by
                have := hall 0; rw [ha0] at this; exact List.mem_of_getElem? this.symm
              have := pos0 a0 hm; omega
            · right
              refine ⟨st, todo, p.le, p.file, p.flen, p.nopop, p.next0, p.next1, Or.inr (Or.inl ?_)⟩
              obtain ⟨⟨a, hka, hle⟩, hgt⟩ := hcov
              refine ⟨k, getElem?_lt hka, rfl, ?_, ?_⟩
              · -- base + k ≤ todo
                apply Classical.byContradiction
                intro hc
                have hka' : s.all[base + k]? = some a := by rw [← hall]; exact hka
                have hlt := getElem?_lt hka'
                obtain ⟨b, hb⟩ : ∃ b, s.all[todo]? = some b :=
                  ⟨_, List.getElem?_eq_getElem (by omega)⟩
                have h1 := p.due ord hb
                have h2 := ord_get ord (by omega) hb hka'
                have := hsp b
                omega
              · -- todo ≤ base + k + 1
                apply Classical.byContradiction
                intro hc
                have hst : st < todo ∨ st = todo := by have := p.le; omega
                rcases hst with hst | hst
                · obtain ⟨b, h1, h2⟩ := p.next1 hst
                  have h3 : l[todo - 1 - base]? = some b := by
                    rw [hall, ← h1]; congr 1; omega
                  have := hgt (todo - 1 - base) b (by omega) h3
                  omega
                · obtain ⟨b, h1, h2⟩ := p.next0 hst.symm
                  have h3 : l[st - base]? = some b := by
                    rw [hall, ← h1]; congr 1; omega
                  have := hgt (st - base) b (by omega) h3
                  omega
    · rename_i it cnt hpc
      split at h
      · rename_i hg
        injection h with h; subst h
        rcases cases with ⟨c1, c2, c3⟩ | ⟨st, todo, p⟩
        · exfalso; rw [hpc] at c3; exact hg.1 c3
        · right
          refine ⟨st, todo, p.le, p.file, p.flen, p.nopop, p.next0, p.next1, ?_⟩
          have := p.it; rw [hpc] at this
          exact ⟨this, hg.1⟩
      · injection h with h; subst h
        rcases cases with ⟨c1, c2, c3⟩ | ⟨st, todo, p⟩
        · left; exact ⟨c1, c2, trivial⟩
        · right; exact ⟨st, todo, p.le, p.file, p.flen, p.nopop, p.next0, p.next1, trivial⟩
    · rename_i it cnt hpc
      rcases cases with ⟨c1, c2, c3⟩ | ⟨st, todo, p⟩
      · rw [hpc] at c3; exact c3.elim
      · have hit := p.it; rw [hpc] at hit
        obtain ⟨hit, hne⟩ := hit
        rcases hit with hit | ⟨k, hk, e, hk1, hk2⟩ | ⟨hi1, hi2, hi3⟩
        · exact absurd hit hne
        · have hd : s.q.deref it = .ok l[k] := by rw [e]; exact load_slot repr hk
          rw [hd] at h
          simp only [Outcome.bind_ok] at h
          have hka : s.all[base + k]? = some l[k] := by
            rw [← hall]; exact List.getElem?_eq_getElem hk
          have hinc : s.q.inc it = if k + 1 < l.length then slotIdx s.q.size s.q.rd (k+1) else endIdx := by
            rw [e]; exact inc_slot repr size k hk
          right
          by_cases hcase : base + k = todo
          · have hdue := p.due ord (hcase ▸ hka)
            rw [if_pos hdue] at h
            injection h with h; subst h
            have hlt := getElem?_lt hka
            have hpl := p.le
            refine ⟨st, todo + 1, by omega, ?_, ?_, by have := p.nopop; omega, by intro h; omega, ?_, ?_⟩
            · show s.file ++ [l[k]] = _
              rw [p.file, show todo + 1 - st = (todo - st) + 1 by omega, List.take_add_one,
                List.getElem?_drop, show st + (todo - st) = base + k by omega, hka]
              rfl
            · show (s.file ++ [l[k]]).length = _
              simp [p.flen]; omega
            · intro _
              exact ⟨l[k], by show s.all[todo + 1 - 1]? = _; rw [← hka]; congr 1; omega, rfl⟩
            · show ItOk s.q l base (todo + 1) (s.q.inc it)
              rw [hinc]
              by_cases hk3 : k + 1 < l.length
              · rw [if_pos hk3]; exact Or.inr (Or.inl ⟨k+1, hk3, rfl, by omega, by omega⟩)
              · rw [if_neg hk3]; exact Or.inl rfl
          · have hnot : ¬ T.ts l[k] ≥ s.next := by
              rcases Nat.lt_or_ge st todo with hlt | hge
              · obtain ⟨b, h1, h2⟩ := p.next1 hlt
                have : todo - 1 = base + k := by omega
                rw [this, hka] at h1; injection h1 with h1; subst h1
                have := hsp l[k]; omega
              · obtain ⟨b, h1, h2⟩ := p.next0 (by have := p.le; omega)
                have := ord_get ord (show base + k < st by have := p.le; omega) hka h1
                have := hsp l[k]; omega
            rw [if_neg hnot] at h
            injection h with h; subst h
            refine ⟨st, todo, p.le, p.file, p.flen, p.nopop, p.next0, p.next1, ?_⟩
            show ItOk s.q l base todo (s.q.inc it)
            rw [hinc]
            by_cases hk3 : k + 1 < l.length
            · rw [if_pos hk3]; exact Or.inr (Or.inl ⟨k+1, hk3, rfl, by omega, by omega⟩)
            · rw [if_neg hk3]; exact Or.inl rfl
        · exfalso
          have hng := inc_prev repr it hi1 hi2 size
          have hdead : s.q.slots it = none := by
            apply repr.dead it hi1
            intro k hk he
            have := (repr.occupied size it hi1).2 ⟨k, hk, he⟩
            rw [hng] at this; cases this
          have : s.q.deref it = .ub .deadObject := by
            simp [Ring.deref, Ring.load, hi1, hdead]
          rw [this] at h; simp at h
  | arrive q' p b ho h0 h =>
    by_cases hf : l.length < s.q.size - 1
    · obtain ⟨q1, e1, r1, s1, d1, o1, -⟩ := write_ok repr p hf
      rw [h] at e1; injection e1 with e1; injection e1 with e1 e2; subst e1; subst e2
      refine ⟨l ++ [p], base, ⟨r1, by rw [s1]; exact size, ?_, ?_, ?_, ?_, ?_⟩, ?_, Nat.le_refl _⟩
      · show (s.all ++ [p]).Pairwise _
        rw [List.pairwise_append]
        exact ⟨ord, by simp, fun a ha b hb => by simp at hb; subst hb; exact ho a ha⟩
      · intro a ha
        have ha : a ∈ s.all ++ [p] := ha
        rcases List.mem_append.1 ha with ha | ha
        · exact pos0 a ha
        · simp at ha; subst ha; exact h0
      · show l ++ [p] = (s.all ++ [p]).drop base
        rw [List.drop_append_of_le_length ble, sto]
      · show base ≤ (s.all ++ [p]).length
        simp; omega
      · rcases cases with ⟨c1, c2, c3⟩ | ⟨st, todo, ps⟩
        · left; exact ⟨c1, c2, c3⟩
        · right
          have htl : todo ≤ s.all.length := by
            have h1 := ps.flen; rw [ps.file] at h1; simp at h1
            have := ps.le
            rcases Nat.lt_or_ge st todo with hlt | hge
            · omega
            · obtain ⟨a, h1, -⟩ := ps.next0 (by omega)
              have := getElem?_lt h1; omega
          have hkeep : ∀ (i : Nat) (a : P), s.all[i]? = some a → (s.all ++ [p])[i]? = some a := by
            intro i a ha; rw [List.getElem?_append_left (getElem?_lt ha)]; exact ha
          refine ⟨st, todo, ps.le, ?_, ps.flen, ps.nopop, ?_, ?_, ?_⟩
          · show s.file = ((s.all ++ [p]).drop st).take (todo - st)
            rw [List.drop_append_of_le_length (by have := ps.le; omega),
              List.take_append_of_le_length (by simp; omega)]
            exact ps.file
          · intro e; obtain ⟨a, h1, h2⟩ := ps.next0 e; exact ⟨a, hkeep _ _ h1, h2⟩
          · intro e; obtain ⟨a, h1, h2⟩ := ps.next1 e; exact ⟨a, hkeep _ _ h1, h2⟩
          · have hk : ∀ it, ItOk s.q l base todo it → ItOk q' (l ++ [p]) base todo it := by
              intro it hit
              rcases hit with hit | ⟨k, hk, e, hk1, hk2⟩ | ⟨hi1, hi2, hi3⟩
              · exact Or.inl hit
              · exact Or.inr (Or.inl ⟨k, by simp; omega, by rw [s1, d1]; exact e, hk1, hk2⟩)
              · exact Or.inr (Or.inr ⟨by rw [s1]; exact hi1, by rw [s1, d1]; exact hi2, hi3⟩)
            have hit := ps.it
            revert hit
            show (match s.pc with | .start => _ | .search => _ | .test it _ => _ | .body it _ => _) →
              (match s.pc with | .start => _ | .search => _ | .test it _ => _ | .body it _ => _)
            cases s.pc with
            | start => exact fun h => h
            | search => exact fun h => h
            | test it c => exact hk it
            | body it c => exact fun h => ⟨hk it h.1, h.2⟩
      · exact List.prefix_append _ _
    · have e1 := write_full repr p hf
      rw [h] at e1; injection e1 with e1; injection e1 with e1 e2; subst e1; subst e2
      refine ⟨l, base, ⟨repr_overflow repr _, size, ord, pos0, sto, ble, ?_⟩,
        List.prefix_refl _, Nat.le_refl _⟩
      rcases cases with ⟨c1, c2, c3⟩ | ⟨st, todo, ps⟩
      · left; exact ⟨c1, c2, c3⟩
      · right; exact ⟨st, todo, ps.le, ps.file, ps.flen, ps.nopop, ps.next0, ps.next1, ps.it⟩
  | cleanStart h hl =>
    refine ⟨l, base, ⟨repr, size, ord, pos0, sto, ble, ?_⟩, List.prefix_refl _, Nat.le_refl _⟩
    rcases cases with ⟨c1, c2, c3⟩ | ⟨st, todo, ps⟩
    · left; exact ⟨c1, c2, c3⟩
    · right; exact ⟨st, todo, ps.le, ps.file, ps.flen, ps.nopop, ps.next0, ps.next1, ps.it⟩
  | cleanStop a n hl hf ht =>
    refine ⟨l, base, ⟨repr, size, ord, pos0, sto, ble, ?_⟩, List.prefix_refl _, Nat.le_refl _⟩
    rcases cases with ⟨c1, c2, c3⟩ | ⟨st, todo, ps⟩
    · left; exact ⟨c1, c2, c3⟩
    · right; exact ⟨st, todo, ps.le, ps.file, ps.flen, ps.nopop, ps.next0, ps.next1, ps.it⟩
  | cleanPop q' a n hl hf ht h =>
    obtain ⟨l', e⟩ := front_head repr hf
    subst e
    obtain ⟨r1, s1, d1⟩ := pop1 repr h
    have ha : s.all[base]? = some a := by
      have := hall 0; simpa using this.symm
    have hblt := getElem?_lt ha
    have hl' : l' = s.all.drop (base + 1) := by
      have := congrArg List.tail sto
      simpa [List.tail_drop] using this
    refine ⟨l', base + 1, ⟨r1, by rw [s1]; exact size, ord, pos0, hl', by show base + 1 ≤ s.all.length; omega, ?_⟩,
      List.prefix_refl _, by omega⟩
    rcases cases with ⟨c1, c2, c3⟩ | ⟨st, todo, ps⟩
    · omega
    · right
      have hne : base < todo := by
        rcases Nat.lt_or_ge base todo with h' | h'
        · exact h'
        · exfalso
          have : base = todo := by have := ps.nopop; omega
          have := ps.due ord (this ▸ ha); omega
      have hk : ∀ it, ItOk s.q (a :: l') base todo it → ItOk q' l' (base + 1) todo it := by
        intro it hit
        rcases hit with hit | ⟨k, hk, e, hk1, hk2⟩ | ⟨hi1, hi2, hi3⟩
        · exact Or.inl hit
        · cases k with
          | zero =>
            right; right
            have h2 := repr.rdlt
            have : it = s.q.rd := by rw [e]; simp [slotIdx, h2]
            refine ⟨by rw [s1, this]; exact h2, by rw [s1, d1, this], by omega⟩
          | succ k =>
            right; left
            refine ⟨k, by simpa using hk, ?_, by omega, by omega⟩
            rw [s1, d1, slot_shift repr k (by have := repr.len; simp at hk this; omega)]
            exact e
        · omega
      refine ⟨st, todo, ps.le, ps.file, ps.flen, by omega, ps.next0, ps.next1, ?_⟩
      have hit := ps.it
      revert hit
      show (match s.pc with | .start => _ | .search => _ | .test it _ => _ | .body it _ => _) →
        (match s.pc with | .start => _ | .search => _ | .test it _ => _ | .body it _ => _)
      cases s.pc with
      | start => exact fun h => h
      | search => exact fun h => h
      | test it c => exact hk it
      | body it c => exact fun h => ⟨hk it h.1, h.2⟩

theorem inv_reach {T : PayloadType P} (hsp : ∀ p, 0 < span T p) {limit : Nat} {toPop : Nat → Nat}
    {s : St P} (h : Reach T limit toPop s) : ∃ l base, Inv T s l base := by
  induction h with
  | init q l left hr hs ho h0 =>
    exact ⟨l, 0, hr, hs, ho, h0, by simp, by simp, Or.inl ⟨rfl, rfl, trivial⟩⟩
  | step s s' _ st ih =>
    obtain ⟨l, base, inv⟩ := ih
    obtain ⟨l', base', inv', -⟩ := inv_step hsp inv st
    exact ⟨l', base', inv'⟩

theorem file_inv {T : PayloadType P} (hsp : ∀ p, 0 < span T p) {limit : Nat} {toPop : Nat → Nat}
    {s : St P} (h : Reach T limit toPop s) :
    s.file.Pairwise (fun a b => T.ts a + span T a ≤ T.ts b) ∧
      ∀ a ∈ s.file, T.ts a + span T a ≤ s.next := by
  induction h with
  | init q l left hr hs ho h0 => simp
  | step s s' _ st ih =>
    cases st with
    | arrive => exact ih
    | cleanStart => exact ih
    | cleanPop => exact ih
    | cleanStop => exact ih
    | record _ hp h =>
      unfold recStep at h
      split at h
      · split at h
        · rename_i hn
          have hnil : s.file = [] := by
            cases hf : s.file with
            | nil => rfl
            | cons a f => have := ih.2 a (by simp [hf]); have := hsp a; omega
          split at h
          · injection h with h; subst h; simp [hnil]
          · cases hd : s.q.derefPtr (some _) with
            | ok a => rw [hd] at h; simp at h; subst h; simp [hnil]
            | ub w => rw [hd] at h; simp at h
            | throws w => rw [hd] at h; simp at h
        · injection h with h; subst h; exact ih
      · cases hd : lowerBound s.q T.ts s.next s.q.size with
        | ub w => rw [hd] at h; simp at h
        | throws w => rw [hd] at h; simp at h
        | ok r =>
          rw [hd] at h
          cases r with
          | none => simp at h
          | some it => simp at h; subst h; exact ih
      · split at h
        · injection h with h; subst h; exact ih
        · injection h with h; subst h; exact ih
      · cases hd : s.q.deref _ with
        | ub w => rw [hd] at h; simp at h
        | throws w => rw [hd] at h; simp at h
        | ok p =>
          rw [hd] at h
          simp only [Outcome.bind_ok] at h
          split at h
          · rename_i hge
            injection h with h; subst h
            refine ⟨?_, ?_⟩
            · show (s.file ++ [p]).Pairwise _
              rw [List.pairwise_append]
              refine ⟨ih.1, by simp, ?_⟩
              intro a ha b hb
              simp at hb; subst hb
              have := ih.2 a ha; omega
            · intro a ha
              have ha : a ∈ s.file ++ [p] := ha
              show _ ≤ T.ts p + span T p
              rcases List.mem_append.1 ha with ha | ha
              · have := ih.2 a ha; omega
              · simp at ha; subst ha; exact Nat.le_refl _
          · injection h with h; subst h; exact ih

/-- **C25 (partial)** For every payload type with a positive nominal length and every interleaving of
recording, arrivals and cleanups: the timestamps of the payloads in the file strictly increase
(each starts at or after the nominal end of the previous one), so no payload is written twice.
Missing: types with zero nominal length, where the claim is false. -/
theorem C25_strictly_increasing_partial (T : PayloadType P) (hsp : ∀ p, 0 < span T p) (limit : Nat)
    (toPop : Nat → Nat) (s : St P) (h : Reach T limit toPop s) :
    (s.file.map T.ts).Pairwise (· < ·) ∧ s.file.Nodup := by
  have hf := (file_inv hsp h).1
  have h1 : s.file.Pairwise (fun a b => T.ts a < T.ts b) :=
    hf.imp (fun {a b} hab => by have := hsp a; omega)
  refine ⟨List.pairwise_map.2 h1, ?_⟩
  exact h1.imp (fun {a b} hab e => by subst e; omega)

/-- **C25 is false of the code for PACMAN**, whose expected tick difference is 0
(include/readout/NDReadoutTypes.hpp l.130): every pass writes the newest payload again. -/
theorem C25_zero_tick_counterexample (T : PayloadType Nat) (ht : T.tick = 0) (hts : T.ts = id)
    (key : Nat) (hk : key ≤ 7) :
    recordSkip T key 0 [7] = ([7], 7) ∧ recordSkip T key 7 [7] = ([7], 7) := by
  have : SkipList.fromLowerBound T.ts [7] key = [7] := by
    simp [SkipList.fromLowerBound, hts, hk]
  simp only [recordSkip, this]
  simp [passSkip, hts, span, ht]

/-- **C26 (partial)** Ring buffers with the default cleanup; missing: the photon-detector list buffer,
where the claim is false. For every interleaving of recording, arrivals and cleanups (payload types of positive
length): there is a starting position such that the file is a contiguous run of the accepted
payloads from there on, and every later accepted payload is still stored: neither recording nor
cleanup has lost any. -/
theorem C26_nothing_lost_partial (T : PayloadType P) (hsp : ∀ p, 0 < span T p) (limit : Nat)
    (toPop : Nat → Nat) (s : St P) (h : Reach T limit toPop s) :
    ∃ l, Repr s.q l ∧ l <:+ s.all ∧
      (s.file ≠ [] → ∃ before rest, s.all = before ++ s.file ++ rest ∧ rest <:+ l) := by
  obtain ⟨l, base, inv⟩ := inv_reach hsp h
  refine ⟨l, inv.repr, by rw [inv.sto]; exact List.drop_suffix _ _, ?_⟩
  intro hne
  rcases inv.cases with ⟨-, c, -⟩ | ⟨st, todo, p⟩
  · exact absurd c hne
  · refine ⟨s.all.take st, s.all.drop todo, ?_, ?_⟩
    · conv => lhs; rw [← List.take_append_drop st s.all]
      rw [List.append_assoc]
      congr 1
      conv => lhs; rw [← List.take_append_drop (todo - st) (s.all.drop st)]
      rw [← p.file, List.drop_drop]
      congr 2
      have := p.le; omega
    · rw [inv.sto]
      have : s.all.drop todo = (s.all.drop base).drop (todo - base) := by
        rw [List.drop_drop]; congr 1; have := p.nopop; omega
      rw [this]; exact List.drop_suffix _ _

/-- **C26 is false of the code for the photon-detector list buffer**: its cleanup
(src/daphne/DAPHNEListRequestHandler.hpp l.57-97) does not look at the recording position. Payload 100
has been written (position 292); 300 and 10000500 arrive; the cleanup discards 300, which was not
written yet, and the next pass continues with 10000500. -/
theorem C26_photon_list_counterexample (T : PayloadType Nat) (hts : T.ts = id) (ht : T.tick = 16)
    (hn : ∀ p, T.nf p = 12) :
    recordSkip T 100 0 [100] = ([100], 292) ∧
    SkipList.daphneCleanup T.ts SkipList.daphneMaxTsDiff [100, 300, 10000500] = .ok [10000500] ∧
    recordSkip T 292 292 [100, 300, 10000500] = ([300, 10000500], 10000692) ∧
    recordSkip T 292 292 [10000500] = ([10000500], 10000692) := by
  refine ⟨?_, ?_, ?_, ?_⟩ <;>
  simp [recordSkip, SkipList.fromLowerBound, passSkip, hts, span, ht, hn, List.dropWhile,
    SkipList.daphneCleanup, SkipList.daphneLoop, SkipList.daphneMaxTsDiff]

/-- The hypotheses describe the photon-detector type. -/
example : ∃ T : PayloadType Nat, T.ts = id ∧ T.tick = 16 ∧ ∀ p, T.nf p = 12 :=
  ⟨⟨id, fun _ => 12, fun p k => p + 16 * k, 16⟩, rfl, rfl, fun _ => rfl⟩

/-- The recorder is stuck: it looks for a position before the oldest stored payload and will find
nothing. -/
def Stalled (T : PayloadType P) (s : St P) : Prop :=
  s.next ≠ 0 ∧ (∃ l a, Repr s.q l ∧ l[0]? = some a ∧ s.next < T.ts a ∧ Sorted T.ts l ∧
    ∀ b ∈ l, b ∈ s.all) ∧
  (s.pc = .start ∨ s.pc = .search ∨ ∃ c, s.pc = .test endIdx c)

/-- **C27: a stall is permanent.** Once the recording position lies before the oldest stored payload,
no step of any thread changes the file or the position any more, nor does any cleanup ever discard
a payload: the rest of the recording writes nothing and the buffer runs full. -/
theorem C27_stall_is_permanent (T : PayloadType P) (limit : Nat) (toPop : Nat → Nat) (s s' : St P)
    (hs : Stalled T s) (st : Step T limit toPop s s') :
    Stalled T s' ∧ s'.file = s.file ∧ s'.next = s.next ∧ s.all <+: s'.all ∧
      (∃ l l', Repr s.q l ∧ Repr s'.q l' ∧ l <+: l') := by
  obtain ⟨hn, ⟨l, a, hr, h0, hlt, hsort, hmem⟩, hpc⟩ := hs
  cases st with
  | record _ hp h =>
    unfold recStep at h
    rcases hpc with e | e | ⟨c, e⟩
    · simp only [e, hn, if_false] at h
      injection h with h; subst h
      exact ⟨⟨hn, ⟨l, a, hr, h0, hlt, hsort, hmem⟩, Or.inr (Or.inl rfl)⟩, rfl, rfl,
        List.prefix_refl _, l, l, hr, hr, List.prefix_refl _⟩
    · have hlb : lowerBound s.q T.ts s.next s.q.size = .ok (some endIdx) := by
        rcases C07_binary_search T.ts s.q l hr hsort s.next s.q.size (Nat.le_of_lt hr.len) with
          ⟨-, h'⟩ | ⟨⟨b, hb, hle⟩, -⟩
        · exact h'
        · rw [h0] at hb; injection hb with hb; subst hb; omega
      simp only [e, hlb, Outcome.bind_ok] at h
      injection h with h; subst h
      exact ⟨⟨hn, ⟨l, a, hr, h0, hlt, hsort, hmem⟩, Or.inr (Or.inr ⟨0, rfl⟩)⟩, rfl, rfl,
        List.prefix_refl _, l, l, hr, hr, List.prefix_refl _⟩
    · simp only [e, ne_eq, not_true_eq_false, false_and, if_false] at h
      injection h with h; subst h
      exact ⟨⟨hn, ⟨l, a, hr, h0, hlt, hsort, hmem⟩, Or.inl rfl⟩, rfl, rfl,
        List.prefix_refl _, l, l, hr, hr, List.prefix_refl _⟩
  | arrive q' p b ho hp0 h =>
    by_cases hf : l.length < s.q.size - 1
    · obtain ⟨q1, e1, r1, s1, d1, o1, -⟩ := write_ok hr p hf
      rw [h] at e1; injection e1 with e1; injection e1 with e1 e2; subst e1; subst e2
      refine ⟨⟨hn, ⟨l ++ [p], a, r1, ?_, hlt, ?_, ?_⟩, hpc⟩, rfl, rfl, List.prefix_append _ _,
        l, l ++ [p], hr, r1, List.prefix_append _ _⟩
      · rw [List.getElem?_append_left (getElem?_lt h0)]; exact h0
      · intro i j x y hij hx hy
        by_cases hj : j < l.length
        · rw [List.getElem?_append_left hj] at hy
          rw [List.getElem?_append_left (by omega)] at hx
          exact hsort i j x y hij hx hy
        · have hj' := getElem?_lt hy; simp at hj'
          have : j = l.length := by omega
          subst this; simp at hy; subst hy
          by_cases hi : i < l.length
          · rw [List.getElem?_append_left hi] at hx
            have := ho x (hmem x (List.mem_of_getElem? hx)); omega
          · have : i = l.length := by omega
            subst this; simp at hx; subst hx; exact Nat.le_refl _
      · intro b hb
        show b ∈ s.all ++ [p]
        rcases List.mem_append.1 hb with hb | hb
        · exact List.mem_append.2 (Or.inl (hmem b hb))
        · exact List.mem_append.2 (Or.inr hb)
    · have e1 := write_full hr p hf
      rw [h] at e1; injection e1 with e1; injection e1 with e1 e2; subst e1; subst e2
      exact ⟨⟨hn, ⟨l, a, repr_overflow hr _, h0, hlt, hsort, hmem⟩, hpc⟩, rfl, rfl,
        List.prefix_refl _, l, l, hr, repr_overflow hr _, List.prefix_refl _⟩
  | cleanStart h hl =>
    exact ⟨⟨hn, ⟨l, a, hr, h0, hlt, hsort, hmem⟩, hpc⟩, rfl, rfl,
        List.prefix_refl _, l, l, hr, hr, List.prefix_refl _⟩
  | cleanStop b n hl hf ht =>
    exact ⟨⟨hn, ⟨l, a, hr, h0, hlt, hsort, hmem⟩, hpc⟩, rfl, rfl,
        List.prefix_refl _, l, l, hr, hr, List.prefix_refl _⟩
  | cleanPop q' b n hl hf ht h =>
    exfalso
    rw [DataReq.front_deref hr h0] at hf
    injection hf with hf; subst hf; omega

/-- WIB-like demonstration type: payloads are their timestamps, nominal length 10. -/
def demoT : PayloadType Nat := ⟨id, fun _ => 1, fun p _ => p, 10⟩

/-- Runs the recording thread `n` steps inside `Reach`. -/
theorem reach_run {T : PayloadType P} {limit : Nat} {toPop : Nat → Nat} {s s' : St P} (n : Nat)
    (h : Reach T limit toPop s) (hl : s.left = 0) (hr : recRun T n s = .ok s') :
    Reach T limit toPop s' := by
  have hleft : ∀ t t' : St P, recStep T t = .ok t' → t'.left = t.left := by
    intro t t' h
    unfold recStep at h
    split at h
    · split at h
      · split at h
        · injection h with h; subst h; rfl
        · cases hd : t.q.derefPtr (some _) with
          | ok a => rw [hd] at h; simp at h; subst h; rfl
          | ub w => rw [hd] at h; simp at h
          | throws w => rw [hd] at h; simp at h
      · injection h with h; subst h; rfl
    · cases hd : lowerBound t.q T.ts t.next t.q.size with
      | ub w => rw [hd] at h; simp at h
      | throws w => rw [hd] at h; simp at h
      | ok r =>
        rw [hd] at h
        cases r with
        | none => simp at h
        | some it => simp at h; subst h; rfl
    · split at h <;> (injection h with h; subst h; rfl)
    · cases hd : t.q.deref _ with
      | ub w => rw [hd] at h; simp at h
      | throws w => rw [hd] at h; simp at h
      | ok p =>
        rw [hd] at h
        simp only [Outcome.bind_ok] at h
        split at h <;> (injection h with h; subst h; rfl)
  induction n generalizing s with
  | zero => simp [recRun] at hr; subst hr; exact h
  | succ n ih =>
    simp only [recRun] at hr
    cases hs : recStep T s with
    | ub w => simp [hs] at hr
    | throws w => simp [hs] at hr
    | ok t =>
      simp only [hs, Outcome.bind_ok] at hr
      exact ih (.step _ _ h (.record _ _ (fun _ => hl) hs)) (by rw [hleft _ _ hs]; exact hl) hr

/-- A buffer of size 4 holding the payloads 10 and 20 (slots 0 and 1). -/
def demoQ : Ring Nat := ⟨4, fun i => if i = 0 then some 10 else if i = 1 then some 20 else none, 0, 2, 0⟩

theorem demoQ_repr : Repr demoQ [10, 20] := by
  constructor
  · simp [demoQ]
  · simp [demoQ]
  · simp [demoQ]
  · simp [demoQ, slotIdx]
  · intro k x hk
    match k with
    | 0 => simp at hk; simp [demoQ, slotIdx, hk]
    | 1 => simp at hk; simp [demoQ, slotIdx, hk]
    | k + 2 => simp at hk
  · intro i hi hk
    have h0 := hk 0 (by simp); have h1 := hk 1 (by simp)
    simp [demoQ, slotIdx] at h0 h1
    simp [demoQ, h0, h1]

/-- The recording has caught up: both payloads are in the file, position 30. -/
theorem demo_caught_up : Reach demoT 2 (fun n => n * 4 / 5)
    ⟨demoQ, 30, .start, 0, [10, 20], [10, 20]⟩ :=
  reach_run 7 (.init demoQ [10, 20] 0 demoQ_repr (by decide) (by simp [demoT, span]) (by simp [demoT]))
    rfl rfl

/-- Non-vacuity for C25 and C26: a recording that wrote two payloads. -/
example : (∀ p, 0 < span demoT p) ∧
    ∃ s, Reach demoT 2 (fun n => n * 4 / 5) s ∧ s.file = [10, 20] :=
  ⟨fun _ => by simp [span, demoT], _, demo_caught_up, rfl⟩

/-- **C27 is false of the code**: after a gap in the data (20, then 50 instead of 30) a cleanup that
discards everything before the gap leaves the recording position before the oldest stored
payload: the recording is stalled although data at or after its position is stored. -/
theorem C27_gap_counterexample :
    ∃ s, Reach demoT 2 (fun n => n * 4 / 5) s ∧ Stalled demoT s ∧ s.file = [10, 20] ∧ s.next = 30 ∧
      s.q.visit 4 s.q.begin = .ok ([50], endIdx) := by
  have h1 := Reach.step _ _ demo_caught_up (.arrive _ _ 50 _ (by simp [demoT, span]) (by decide) rfl)
  have h2 := Reach.step _ _ h1 (.cleanStart _ (by decide) rfl)
  have h3 := Reach.step _ _ h2 (.cleanPop _ _ 10 1 rfl rfl (by decide) rfl)
  have h4 := Reach.step _ _ h3 (.cleanPop _ _ 20 0 rfl rfl (by decide) rfl)
  obtain ⟨l, base, inv⟩ := inv_reach (fun _ => by simp [span, demoT]) h4
  have hl : l = [50] := by
    have e := inv.repr.occ
    have hlen : l.length = 1 := by rw [← e]; rfl
    have hsto := inv.sto
    have hall : ([10, 20] ++ [50] : List Nat).drop base = l := hsto.symm
    match base with
    | 0 => subst hall; simp at hlen
    | 1 => subst hall; simp at hlen
    | 2 => exact hall.symm
    | n + 3 => subst hall; simp at hlen
  refine ⟨_, h4, ⟨by decide, ⟨l, 50, inv.repr, by simp [hl], by decide, ?_, ?_⟩, Or.inl rfl⟩, rfl, rfl, rfl⟩
  · rw [inv.sto]; exact ord_sorted (inv.ord.sublist (List.drop_sublist _ _))
  · intro b hb; rw [inv.sto] at hb; exact List.mem_of_mem_drop hb

/-- **C27 (partial)** If the recording position is not before the oldest stored payload and the payload
due next is stored, an undisturbed recording thread starting a pass writes a payload within six
steps (one pass). Missing: positions before the oldest stored payload, where the claim is false. -/
theorem C27_progress_partial (T : PayloadType P) (hsp : ∀ p, 0 < span T p) (limit : Nat)
    (toPop : Nat → Nat) (s : St P) (h : Reach T limit toPop s) (hpc : s.pc = .start)
    (hn : s.next ≠ 0) (l : List P) (hr : Repr s.q l) (a z : P) (h0 : l[0]? = some a)
    (hle : T.ts a ≤ s.next) (hz : z ∈ l) (hge : s.next ≤ T.ts z) :
    ∃ n s' p, n ≤ 6 ∧ recRun T n s = .ok s' ∧ s'.file = s.file ++ [p] := by
  obtain ⟨l1, base, inv⟩ := inv_reach hsp h
  have := repr_unique inv.repr hr
  subst this
  have hord : l1.Pairwise (fun a b => T.ts a + span T a ≤ T.ts b) := by
    rw [inv.sto]; exact inv.ord.sublist (List.drop_sublist _ _)
  have hsort := ord_sorted hord
  rcases C07_binary_search T.ts s.q l1 hr hsort s.next s.q.size (Nat.le_of_lt hr.len) with
    ⟨h', -⟩ | ⟨-, k, hlb, hcov⟩
  · exfalso
    rcases h' with h' | ⟨b, hb, hlt⟩
    · subst h'; simp at h0
    · rw [h0] at hb; injection hb with hb; subst hb; omega
  obtain ⟨⟨b, hb, hble⟩, hgt⟩ := hcov
  have hk := getElem?_lt hb
  have hpos := pos_ne_end hr inv.size k hk
  have hgood : s.q.good (slotIdx s.q.size s.q.rd k) = true :=
    (hr.occupied inv.size _ (slotIdx_lt hr.rdlt (by have := hr.len; omega))).2 ⟨k, hk, rfl⟩
  have hne : slotIdx s.q.size s.q.rd k ≠ endIdx := by
    simpa [pos, hk] using hpos
  have hd : s.q.deref (slotIdx s.q.size s.q.rd k) = .ok b := by
    rw [Ring.deref, load_slot hr hk]; congr 1
    rw [List.getElem?_eq_getElem hk] at hb; injection hb
  have r1 : recStep T s = .ok { s with pc := .search } := by simp [recStep, hpc, hn]
  have r2 : recStep T { s with pc := .search } = .ok { s with pc := .test (slotIdx s.q.size s.q.rd k) 0 } := by
    simp [recStep, hlb]
  have r3 : recStep T { s with pc := .test (slotIdx s.q.size s.q.rd k) 0 } =
      .ok { s with pc := .body (slotIdx s.q.size s.q.rd k) 0 } := by
    simp [recStep, hne, hgood]
  by_cases hbn : T.ts b ≥ s.next
  · refine ⟨4, ⟨s.q, T.ts b + span T b, .test (s.q.inc (slotIdx s.q.size s.q.rd k)) 1, s.left,
        s.file ++ [b], s.all⟩, b, by omega, ?_, ?_⟩
    · simp only [recRun, r1, r2, r3, Outcome.bind_ok]
      simp [recStep, hd, hbn]
    · rfl
  · obtain ⟨j, hj⟩ := List.getElem?_of_mem hz
    have hkj : k < j := by
      rcases Nat.lt_or_ge k j with h' | h'
      · exact h'
      · have := hsort j k z b h' hj hb; omega
    have hk1 : k + 1 < l1.length := by have := getElem?_lt hj; omega
    have hinc : s.q.inc (slotIdx s.q.size s.q.rd k) = slotIdx s.q.size s.q.rd (k+1) := by
      rw [inc_slot hr inv.size k hk, if_pos hk1]
    have hgood' : s.q.good (slotIdx s.q.size s.q.rd (k+1)) = true :=
      (hr.occupied inv.size _ (slotIdx_lt hr.rdlt (by have := hr.len; omega))).2 ⟨k+1, hk1, rfl⟩
    have hne' : slotIdx s.q.size s.q.rd (k+1) ≠ endIdx := by
      have := pos_ne_end hr inv.size (k+1) hk1
      simpa [pos, hk1] using this
    have hd' : s.q.deref (slotIdx s.q.size s.q.rd (k+1)) = .ok l1[k+1] := load_slot hr hk1
    have hgt' : s.next < T.ts l1[k+1] := hgt (k+1) _ (by omega) (List.getElem?_eq_getElem hk1)
    refine ⟨6, ⟨s.q, T.ts l1[k+1] + span T l1[k+1], .test (s.q.inc (slotIdx s.q.size s.q.rd (k+1))) 1,
        s.left, s.file ++ [l1[k+1]], s.all⟩, l1[k+1], by omega, ?_, rfl⟩
    simp only [recRun, r1, r2, r3, Outcome.bind_ok]
    have r4 : recStep T { s with pc := .body (slotIdx s.q.size s.q.rd k) 0 } =
        .ok { s with pc := .test (slotIdx s.q.size s.q.rd (k+1)) 0 } := by
      simp [recStep, hd, hbn, hinc]
    have r5 : recStep T { s with pc := .test (slotIdx s.q.size s.q.rd (k+1)) 0 } =
        .ok { s with pc := .body (slotIdx s.q.size s.q.rd (k+1)) 0 } := by
      simp [recStep, hne', hgood']
    simp only [r4, r5, Outcome.bind_ok]
    simp [recStep, hd', Nat.le_of_lt hgt']

/-- Non-vacuity for the partial theorem: the caught-up recording after the arrival of 30. -/
example : ∃ s, Reach demoT 2 (fun n => n * 4 / 5) s ∧ s.pc = .start ∧ s.next = 30 ∧
    s.q.visit 4 s.q.begin = .ok ([10, 20, 30], endIdx) := by
  have h1 := Reach.step _ _ demo_caught_up (.arrive _ _ 30 _ (by simp [demoT, span]) (by decide) rfl)
  exact ⟨_, h1, rfl, rfl, rfl⟩

/-- **C58 is false of the code**: the recording thread reads payloads outside the cleanup/request
protocol; a cleanup can discard the payload the thread is about to look at. -/
theorem C58_discarded_read_counterexample :
    ∃ s, Reach demoT 1 (fun n => n * 4 / 5) s ∧ recStep demoT s = .ub .deadObject := by
  have h0 : Reach demoT 1 (fun n => n * 4 / 5) ⟨demoQ, 30, .body 1 0, 0, [10, 20], [10, 20]⟩ :=
    reach_run 10 (.init demoQ [10, 20] 0 demoQ_repr (by decide) (by simp [demoT, span]) (by simp [demoT]))
      rfl rfl
  have h1 := Reach.step _ _ h0 (.arrive _ _ 30 _ (by simp [demoT, span]) (by decide) rfl)
  have h2 := Reach.step _ _ h1 (.cleanStart _ (by decide) rfl)
  have h3 := Reach.step _ _ h2 (.cleanPop _ _ 10 1 rfl rfl (by decide) rfl)
  have h4 := Reach.step _ _ h3 (.cleanPop _ _ 20 0 rfl rfl (by decide) rfl)
  exact ⟨_, h4, rfl⟩

/-- **C58 (partial)** The recording thread never fails in any other way, and the payload it reads dead
is never one that still has to be written: whenever it is about to look at a stored payload the
step completes, and a payload that is written to the file was stored at that moment. -/
theorem C58_reads_partial (T : PayloadType P) (hsp : ∀ p, 0 < span T p) (limit : Nat)
    (toPop : Nat → Nat) (s : St P) (h : Reach T limit toPop s) :
    ((∃ s', recStep T s = .ok s' ∧ ∀ p, s'.file = s.file ++ [p] → ∃ l, Repr s.q l ∧ p ∈ l) ∨
     (∃ it c, s.pc = .body it c ∧ s.q.good it = false ∧ recStep T s = .ub .deadObject)) := by
  obtain ⟨l, base, inv⟩ := inv_reach hsp h
  have hself : ∀ (f : List P) (p : P), f = f ++ [p] → False := by
    intro f p e; have := congrArg List.length e; simp at this
  unfold recStep
  split
  · left
    split
    · split
      · exact ⟨_, rfl, fun p hp => (hself _ p hp).elim⟩
      · rename_i i hfr
        cases hl : l with
        | nil =>
          have := inv.repr.rd_eq_wr.2 hl
          simp [Ring.front, this] at hfr
        | cons a l' =>
          have hd := DataReq.front_deref inv.repr (a := a) (by simp [hl])
          rw [hfr] at hd
          rw [hd]
          exact ⟨_, rfl, fun p hp => (hself _ p hp).elim⟩
    · exact ⟨_, rfl, fun p hp => (hself _ p hp).elim⟩
  · left
    have hsort : Sorted T.ts l := by
      rw [inv.sto]; exact ord_sorted (inv.ord.sublist (List.drop_sublist _ _))
    rcases C07_binary_search T.ts s.q l inv.repr hsort s.next s.q.size (Nat.le_of_lt inv.repr.len) with
      ⟨-, e⟩ | ⟨-, k, e, -⟩
    · rw [e]; exact ⟨_, rfl, fun p hp => (hself _ p hp).elim⟩
    · rw [e]; exact ⟨_, rfl, fun p hp => (hself _ p hp).elim⟩
  · left
    split
    · exact ⟨_, rfl, fun p hp => (hself _ p hp).elim⟩
    · exact ⟨_, rfl, fun p hp => (hself _ p hp).elim⟩
  · rename_i it cnt hpc
    rcases inv.cases with ⟨-, -, c3⟩ | ⟨st, todo, p⟩
    · rw [hpc] at c3; exact c3.elim
    · have hit := p.it; rw [hpc] at hit
      obtain ⟨hit, hne⟩ := hit
      rcases hit with hit | ⟨k, hk, e, hk1, hk2⟩ | ⟨hi1, hi2, hi3⟩
      · exact absurd hit hne
      · left
        have hd : s.q.deref it = .ok l[k] := by rw [e]; exact load_slot inv.repr hk
        rw [hd]
        simp only [Outcome.bind_ok]
        split
        · refine ⟨_, rfl, ?_⟩
          intro p hp
          have : [l[k]] = [p] := List.append_cancel_left hp
          injection this with this
          exact ⟨l, inv.repr, by rw [← this]; exact List.getElem_mem _⟩
        · exact ⟨_, rfl, fun p hp => (hself _ p hp).elim⟩
      · right
        have hng := inc_prev inv.repr it hi1 hi2 inv.size
        have hdead : s.q.slots it = none := by
          apply inv.repr.dead it hi1
          intro k hk he
          have := (inv.repr.occupied inv.size it hi1).2 ⟨k, hk, he⟩
          rw [hng] at this; cases this
        refine ⟨it, cnt, hpc, hng, ?_⟩
        have : s.q.deref it = .ub .deadObject := by
          simp [Ring.deref, Ring.load, hi1, hdead]
        rw [this]; rfl

/-- **C58 (partial), the validity test**: if no cleanup intervenes between the loop test and the loop
body, the thread never reads a discarded payload; so a discarded payload can only be read when it
was discarded between these two steps. -/
theorem C58_tested_payload_is_stored_partial (T : PayloadType P) (hsp : ∀ p, 0 < span T p)
    (limit : Nat) (toPop : Nat → Nat) (s : St P) (h : Reach T limit toPop s) (it cnt : Nat)
    (hpc : s.pc = .test it cnt) : ∃ s1 s2, recStep T s = .ok s1 ∧ recStep T s1 = .ok s2 := by
  obtain ⟨s1, h1⟩ : ∃ s1, recStep T s = .ok s1 := by
    rcases C58_reads_partial T hsp limit toPop s h with ⟨s1, h1, -⟩ | ⟨it', c', e, -⟩
    · exact ⟨s1, h1⟩
    · rw [hpc] at e; cases e
  have hr1 : Reach T limit toPop s1 := .step _ _ h (.record _ _ (by simp [hpc]) h1)
  rcases C58_reads_partial T hsp limit toPop s1 hr1 with ⟨s2, h2, -⟩ | ⟨it', c', e, hg, -⟩
  · exact ⟨s1, s2, h1, h2⟩
  · exfalso
    simp only [recStep, hpc] at h1
    split at h1
    · rename_i hc
      injection h1 with h1; subst h1
      simp at e; rw [← e.1] at hg
      have hg : s.q.good it = false := hg
      rw [hc.2.1] at hg; cases hg
    · injection h1 with h1; subst h1; cases e

/-- Non-vacuity: see `demo_caught_up`. -/
example : ∃ s, Reach demoT 2 (fun n => n * 4 / 5) s ∧ s.next = 30 := ⟨_, demo_caught_up, rfl⟩

end Verif.Record
