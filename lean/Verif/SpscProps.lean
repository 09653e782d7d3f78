import Verif.SpscModel
/-
Property C04: single-producer single-consumer safety under all interleavings.
-/
namespace Verif.Spsc
open Verif.Ring (nextIdx)
variable {α : Type u}

theorem mod_ne {n a b : Nat} (h1 : a < b) (h2 : b < a + n) : a % n ≠ b % n := by
  intro e
  have h := Nat.sub_mod_eq_zero_of_mod_eq e.symm
  rw [Nat.mod_eq_of_lt (by omega)] at h
  omega

theorem mod_inj {n a b lo : Nat} (ha : lo ≤ a) (ha' : a < lo + n) (hb : lo ≤ b) (hb' : b < lo + n)
    (e : a % n = b % n) : a = b := by
  rcases Nat.lt_trichotomy a b with h | h | h
  · exact absurd e (mod_ne h (by omega))
  · exact h
  · exact absurd e.symm (mod_ne h (by omega))

theorem nextIdx_mod {n : Nat} (hn : 2 ≤ n) (k : Nat) : nextIdx n (k % n) = (k + 1) % n := by
  have h := Nat.div_add_mod k n
  have hlt := Nat.mod_lt k (show 0 < n by omega)
  have e : (k + 1) % n = (k % n + 1) % n := by
    conv => lhs; rw [← h, Nat.add_assoc, Nat.mul_add_mod]
  rw [e, nextIdx]
  split
  · rename_i h'; rw [h', Nat.mod_self]
  · exact (Nat.mod_eq_of_lt (by omega)).symm

/-- One element constructed but not yet published. -/
def pend : PPc α → Nat
  | .toStore _ _ => 1
  | _ => 0

/-- One element destroyed but whose slot is not yet released. -/
def gone : CPc α → Nat
  | .toStore _ _ _ => 1
  | _ => 0

/-- Inductive invariant; `committed.length`/`removed.length` count published writes / removals. -/
structure Inv (n : Nat) (s : St α) : Prop where
  wlen : s.wrHist.length = s.committed.length + 1
  rlen : s.rdHist.length = s.removed.length + 1
  wval : ∀ j w, s.wrHist[j]? = some w → w = j % n
  rval : ∀ j r, s.rdHist[j]? = some r → r = j % n
  seenW : s.seenW ≤ s.committed.length
  seenR : s.seenR ≤ s.removed.length
  le : s.removed.length ≤ s.seenW
  room : s.committed.length ≤ s.seenR + (n - 1)
  pre : s.removed = s.committed.take s.removed.length
  sub : List.Sublist s.delivered s.removed
  pGotW : ∀ v cw, s.p = .gotW v cw → cw = s.committed.length % n
  pCons : ∀ v cw, s.p = .toConstruct v cw → cw = s.committed.length % n ∧
    s.committed.length + 1 ≤ s.seenR + (n - 1)
  pSto : ∀ v nx, s.p = .toStore v nx → nx = (s.committed.length + 1) % n ∧
    s.committed.length + 1 ≤ s.seenR + (n - 1) ∧
    s.slots (s.committed.length % n) = some v
  cGotR : ∀ k cr, s.c = .gotR k cr → cr = s.removed.length % n
  cMov : ∀ cr, s.c = .toMove cr → cr = s.removed.length % n ∧
    s.removed.length < s.seenW
  cDes : ∀ k cr, s.c = .toDestroy k cr → cr = s.removed.length % n ∧
    s.removed.length < s.seenW ∧
    (k = true → s.moved = s.committed[s.removed.length]?)
  cSto : ∀ k nx a, s.c = .toStore k nx a → nx = (s.removed.length + 1) % n ∧
    s.removed.length < s.seenW ∧ s.committed[s.removed.length]? = some a ∧
    (k = true → s.moved = some a)
  live : ∀ k, s.removed.length + gone s.c ≤ k → k < s.committed.length →
    s.slots (k % n) = s.committed[k]?
  dead : ∀ i, i < n → (∀ k, s.removed.length + gone s.c ≤ k →
    k < s.committed.length + pend s.p → k % n ≠ i) → s.slots i = none

theorem getLast_eq {l : List Nat} {m w n : Nat} (hl : l.length = m + 1)
    (hv : ∀ j w, l[j]? = some w → w = j % n) (h : l.getLast? = some w) : w = m % n := by
  rw [List.getLast?_eq_getElem?] at h
  have := hv _ _ h
  rw [this, hl]; rfl

theorem inv_init (n : Nat) (hn : 2 ≤ n) : Inv n (St.init α) := by
  constructor <;> simp [St.init]
  · intro j w h; cases j <;> simp_all; subst h; simp
  · intro j w h; cases j <;> simp_all; subst h; simp

theorem lt_of_getElem? {β : Type v} {l : List β} {j : Nat} {w : β} (h : l[j]? = some w) :
    j < l.length := by
  rcases Nat.lt_or_ge j l.length with h' | h'
  · exact h'
  · rw [List.getElem?_eq_none h'] at h; simp at h

theorem hist_append {l : List Nat} {m x n : Nat} (hl : l.length = m + 1)
    (hv : ∀ j w, l[j]? = some w → w = j % n) (hx : x = (m + 1) % n) :
    ∀ j w, (l ++ [x])[j]? = some w → w = j % n := by
  intro j w h
  rcases Nat.lt_trichotomy j (m+1) with h' | h' | h'
  · rw [List.getElem?_append_left (by omega)] at h; exact hv j w h
  · subst h'
    rw [List.getElem?_append_right (by omega)] at h
    simp [hl] at h; rw [← h, hx]
  · have := lt_of_getElem? h
    simp at this; omega

theorem inv_step (n : Nat) (hn : 2 ≤ n) (s t : St α) (hi : Inv n s) (st : Step n s t) :
    Inv n t := by
  have hwl := hi.wlen; have hrl := hi.rlen; have hroom := hi.room; have hle := hi.le
  have hsW := hi.seenW; have hsR := hi.seenR
  have hn0 : 0 < n := by omega
  cases st with
  | pLoadW v cw h hl =>
    have e := getLast_eq hi.wlen hi.wval hl
    refine { hi with pGotW := ?_, pCons := ?_, pSto := ?_, dead := ?_ }
    · intro v' cw' h'; simp at h'; rw [← h'.2]; exact e
    · intro v' cw' h'; simp at h'
    · intro v' cw' h'; simp at h'
    · have := hi.dead; simpa [h, pend] using this
  | pLoadRFree v cw j r h hj hr hne =>
    have e := hi.pGotW v cw h
    have hjlt := lt_of_getElem? hr
    have hrv := hi.rval j r hr
    have key : s.committed.length + 1 ≤ j + (n - 1) := by
      rw [e, nextIdx_mod hn, hrv] at hne
      rcases Nat.lt_or_ge (s.committed.length + 1) (j + n) with h' | h'
      · omega
      · have e1 : s.committed.length + 1 = j + n := by omega
        rw [e1, Nat.add_mod_right] at hne
        exact absurd rfl hne
    refine { hi with pGotW := ?_, pCons := ?_, pSto := ?_, dead := ?_, seenR := ?_, room := ?_ }
    · simp; omega
    · simp; omega
    · intro v' cw' h'; simp at h'
    · intro v' cw' h'; simp at h'; rw [← h'.2]; exact ⟨e, key⟩
    · intro v' cw' h'; simp at h'
    · have := hi.dead; simpa [h, pend] using this
  | pLoadRFull v cw j r h hj hr he =>
    have hjlt := lt_of_getElem? hr
    refine { hi with pGotW := ?_, pCons := ?_, pSto := ?_, dead := ?_, seenR := ?_, room := ?_ }
    · simp; omega
    · simp; omega
    · intro v' cw' h'; simp at h'
    · intro v' cw' h'; simp at h'
    · intro v' cw' h'; simp at h'
    · have := hi.dead; simpa [h, pend] using this
  | pConstruct v cw h =>
    obtain ⟨e, hr⟩ := hi.pCons v cw h
    refine { hi with pGotW := ?_, pCons := ?_, pSto := ?_, dead := ?_, live := ?_ }
    · intro v' cw' h'; simp at h'
    · intro v' cw' h'; simp at h'
    · intro v' nx h'; simp at h'
      refine ⟨?_, hr, ?_⟩
      · rw [← h'.2, e, nextIdx_mod hn]
      · simp [e, h'.1]
    · intro k hk hk'
      simp only at hk hk' ⊢
      have : k % n ≠ cw := by
        rw [e]; exact mod_ne hk' (by omega)
      simp only [this, if_false]
      exact hi.live k hk hk'
    · intro i hi' hk
      simp only [pend] at hk ⊢
      have : i ≠ cw := by
        rw [e]; intro e'
        refine hk s.committed.length ?_ (by omega) e'.symm
        cases hc : s.c <;> simp [gone] <;> first | omega | skip
        rename_i k nx a
        have := (hi.cSto k nx a hc).2.1; omega
      simp only [this, if_false]
      apply hi.dead i hi'
      intro k h1 h2
      exact hk k h1 (by simp [h, pend] at h2; omega)
  | pStore v next h =>
    obtain ⟨e, hr, hsl⟩ := hi.pSto v next h
    have hm : ∀ (k : Nat) (b : α), s.committed[k]? = some b → (s.committed ++ [v])[k]? = some b := by
      intro k b hb
      rw [List.getElem?_append_left (lt_of_getElem? hb)]; exact hb
    refine { hi with pGotW := ?_, pCons := ?_, pSto := ?_, dead := ?_, live := ?_, wlen := ?_,
                     wval := ?_, seenW := ?_, room := ?_, pre := ?_, cDes := ?_, cSto := ?_ }
    · simp; omega
    · exact hist_append hi.wlen hi.wval e
    · simp; omega
    · simp; omega
    · simp only
      rw [List.take_append_of_le_length (by omega)]; exact hi.pre
    · intro v' cw' h'; simp at h'
    · intro v' cw' h'; simp at h'
    · intro v' cw' h'; simp at h'
    · intro k cr h'
      obtain ⟨h1, h2, h3⟩ := hi.cDes k cr h'
      refine ⟨h1, h2, fun hk => ?_⟩
      simp only
      rw [h3 hk, List.getElem?_append_left (by omega)]
    · intro k nx a h'
      obtain ⟨h1, h2, h3, h4⟩ := hi.cSto k nx a h'
      exact ⟨h1, h2, hm _ _ h3, h4⟩
    · intro k hk hk'
      simp only [List.length_append, List.length_cons, List.length_nil] at hk hk' ⊢
      rcases Nat.lt_or_ge k s.committed.length with h' | h'
      · rw [List.getElem?_append_left h']; exact hi.live k hk h'
      · have : k = s.committed.length := by omega
        subst this
        simp [hsl]
    · intro i hi' hk
      apply hi.dead i hi'
      intro k h1 h2
      refine hk k h1 ?_
      simp [h, pend] at h2 ⊢; omega
  | cLoadR keep cr h hl =>
    have e := getLast_eq hi.rlen hi.rval hl
    refine { hi with cGotR := ?_, cMov := ?_, cDes := ?_, cSto := ?_, dead := ?_, live := ?_ }
    · intro v' cw' h'; simp at h'; rw [← h'.2]; exact e
    · intro cw' h'; simp at h'
    · intro v' cw' h'; simp at h'
    · intro v' cw' a h'; simp at h'
    · have := hi.live; simpa [h, gone] using this
    · have := hi.dead; simpa [h, gone] using this
  | cLoadWEmpty keep cr j h hj hw =>
    have hjlt := lt_of_getElem? hw
    refine { hi with cGotR := ?_, cMov := ?_, cDes := ?_, cSto := ?_, dead := ?_, live := ?_,
                     seenW := ?_, le := ?_ }
    · simp; omega
    · simp; omega
    · intro v' cw' h'; simp at h'
    · intro cw' h'; simp at h'
    · intro v' cw' h'; simp at h'
    · intro v' cw' a h'; simp at h'
    · have := hi.live; simpa [h, gone] using this
    · have := hi.dead; simpa [h, gone] using this
  | cLoadWFull keep cr j w h hj hw hne =>
    have hjlt := lt_of_getElem? hw
    have e := hi.cGotR keep cr h
    have hwv := hi.wval j w hw
    have key : s.removed.length < j := by
      rw [e, hwv] at hne
      rcases Nat.lt_trichotomy s.removed.length j with h' | h' | h'
      · exact h'
      · rw [h'] at hne; exact absurd rfl hne
      · omega
    cases keep with
    | true =>
      refine { hi with cGotR := ?_, cMov := ?_, cDes := ?_, cSto := ?_, dead := ?_, live := ?_,
                       seenW := ?_, le := ?_ }
      · simp; omega
      · simp; omega
      · intro v' cw' h'; simp at h'
      · intro cw' h'; simp at h'; subst h'; exact ⟨e, key⟩
      · intro v' cw' h'; simp at h'
      · intro v' cw' a h'; simp at h'
      · have := hi.live; simpa [h, gone] using this
      · have := hi.dead; simpa [h, gone] using this
    | false =>
      refine { hi with cGotR := ?_, cMov := ?_, cDes := ?_, cSto := ?_, dead := ?_, live := ?_,
                       seenW := ?_, le := ?_ }
      · simp; omega
      · simp; omega
      · intro v' cw' h'; simp at h'
      · intro cw' h'; simp at h'
      · intro v' cw' h'; simp at h'; obtain ⟨rfl, rfl⟩ := h'
        exact ⟨e, key, by simp⟩
      · intro v' cw' a h'; simp at h'
      · have := hi.live; simpa [h, gone] using this
      · have := hi.dead; simpa [h, gone] using this
  | cMove cr a h hs =>
    obtain ⟨e, hlt⟩ := hi.cMov cr h
    refine { hi with cGotR := ?_, cMov := ?_, cDes := ?_, cSto := ?_, dead := ?_, live := ?_ }
    · intro v' cw' h'; simp at h'
    · intro cw' h'; simp at h'
    · intro v' cw' h'; simp at h'; obtain ⟨rfl, rfl⟩ := h'
      refine ⟨e, hlt, fun _ => ?_⟩
      simp only
      rw [← hs, e]
      exact hi.live _ (by simp [h, gone]) (by omega)
    · intro v' cw' a h'; simp at h'
    · have := hi.live; simpa [h, gone] using this
    · have := hi.dead; simpa [h, gone] using this
  | cDestroy keep cr a h hs =>
    obtain ⟨e, hlt, hmv⟩ := hi.cDes keep cr h
    have hg : s.committed[s.removed.length]? = some a := by
      rw [← hs, e]; exact (hi.live _ (by simp [h, gone]) (by omega)).symm
    refine { hi with cGotR := ?_, cMov := ?_, cDes := ?_, cSto := ?_, dead := ?_, live := ?_,
                     pSto := ?_ }
    · intro v nx h'
      obtain ⟨h1, h2, h3⟩ := hi.pSto v nx h'
      refine ⟨h1, h2, ?_⟩
      have : s.committed.length % n ≠ cr := by
        rw [e]; exact (mod_ne (by omega) (by omega)).symm
      simp only [this, if_false]; exact h3
    · intro v' cw' h'; simp at h'
    · intro cw' h'; simp at h'
    · intro v' cw' h'; simp at h'
    · intro v' cw' a' h'; simp at h'; obtain ⟨rfl, rfl, rfl⟩ := h'
      refine ⟨by rw [e, nextIdx_mod hn], hlt, hg, fun hk => ?_⟩
      simp only; rw [hmv hk, hg]
    · intro k hk hk'
      simp only [gone] at hk hk' ⊢
      have : k % n ≠ cr := by
        rw [e]; exact (mod_ne (by omega) (by omega)).symm
      simp only [this, if_false]
      exact hi.live k (by simp [h, gone]; omega) hk'
    · intro i hi' hk
      simp only [gone] at hk ⊢
      split
      · rfl
      · rename_i hne
        apply hi.dead i hi'
        intro k h1 h2
        rcases Nat.lt_or_ge s.removed.length k with h' | h'
        · exact hk k h' h2
        · have : k = s.removed.length := by omega
          rw [this, ← e]; exact fun e' => hne e'.symm
  | cStore keep next a h =>
    obtain ⟨e, hlt, hg, hmv⟩ := hi.cSto keep next a h
    refine { hi with cGotR := ?_, cMov := ?_, cDes := ?_, cSto := ?_, dead := ?_, live := ?_,
                     rlen := ?_, rval := ?_, seenR := ?_, le := ?_, pre := ?_, sub := ?_ }
    · simp; omega
    · exact hist_append hi.rlen hi.rval e
    · simp; omega
    · simp; omega
    · simp only [List.length_append, List.length_cons, List.length_nil]
      rw [List.take_succ, hg, ← hi.pre]; rfl
    · simp only
      cases keep with
      | true => rw [hmv rfl]; simpa using hi.sub
      | false => simpa using hi.sub.trans (List.sublist_append_left _ _)
    · intro v' cw' h'; simp at h'
    · intro cw' h'; simp at h'
    · intro v' cw' h'; simp at h'
    · intro v' cw' a' h'; simp at h'
    · intro k hk hk'
      simp only [gone, List.length_append, List.length_cons, List.length_nil] at hk hk' ⊢
      exact hi.live k (by simp [h, gone]; omega) hk'
    · intro i hi' hk
      simp only [gone, List.length_append, List.length_cons, List.length_nil] at hk ⊢
      apply hi.dead i hi'
      intro k h1 h2
      exact hk k (by simp [h, gone] at h1; omega) h2

theorem inv_reach (n : Nat) (hn : 2 ≤ n) (s : St α) (h : Reach n s) : Inv n s := by
  induction h with
  | init => exact inv_init n hn
  | step s t _ st ih => exact inv_step n hn s t ih st

/-- **C04** In every interleaving of one producer and one consumer on a buffer of any size
`n ≥ 2`, even when each thread sees stale values of the other's index: no element access is
illegal, the threads never access the same slot at the same time, the removed values are a
prefix of the successfully written ones, the values handed out by `read` are (in order) among
them, at most `n - 1` elements are stored. -/
theorem C04_spsc_safe (n : Nat) (hn : 2 ≤ n) (s : St α) (h : Reach n s) :
    ¬ Fault n s ∧ ¬ Race s ∧ s.removed <+: s.committed ∧
    List.Sublist s.delivered s.removed ∧
    s.committed.length ≤ s.removed.length + (n - 1) := by
  have hi := inv_reach n hn s h
  have hroom := hi.room; have hle := hi.le
  have hsW := hi.seenW; have hsR := hi.seenR
  have hn0 : 0 < n := by omega
  refine ⟨?_, ?_, ?_, hi.sub, by omega⟩
  · rintro (⟨v, cw, hp, hbad⟩ | ⟨cr, hc, hbad⟩ | ⟨k, cr, hc, hbad⟩)
    · obtain ⟨e, hr⟩ := hi.pCons v cw hp
      have hlt : cw < n := by rw [e]; exact Nat.mod_lt _ hn0
      rcases hbad with hb | hb
      · omega
      · apply hb
        apply hi.dead cw hlt
        intro k h1 h2
        simp [hp, pend] at h2
        rw [e]; exact mod_ne h2 (by omega)
    · obtain ⟨e, hr⟩ := hi.cMov cr hc
      have hlt : cr < n := by rw [e]; exact Nat.mod_lt _ hn0
      rcases hbad with hb | hb
      · omega
      · have := hi.live s.removed.length (by simp [hc, gone]) (by omega)
        rw [← e, hb, eq_comm, List.getElem?_eq_none_iff] at this
        omega
    · obtain ⟨e, hr, -⟩ := hi.cDes k cr hc
      have hlt : cr < n := by rw [e]; exact Nat.mod_lt _ hn0
      rcases hbad with hb | hb
      · omega
      · have := hi.live s.removed.length (by simp [hc, gone]) (by omega)
        rw [← e, hb, eq_comm, List.getElem?_eq_none_iff] at this
        omega
  · rintro ⟨v, i, hp, hc⟩
    obtain ⟨e, hr⟩ := hi.pCons v i hp
    have e2 : i = s.removed.length % n ∧ s.removed.length < s.seenW := by
      rcases hc with hc | ⟨k, hc⟩
      · exact hi.cMov i hc
      · exact ⟨(hi.cDes k i hc).1, (hi.cDes k i hc).2.1⟩
    have : s.removed.length % n ≠ s.committed.length % n := mod_ne (by omega) (by omega)
    rw [← e, ← e2.1] at this
    exact this rfl
  · rw [hi.pre]; exact List.take_prefix _ _

/-- A size-2 buffer in which one value has been written. -/
example : ∃ s : St Nat, Reach 2 s ∧ s.committed = [7] := by
  have h0 := Reach.init (α := Nat) (n := 2)
  have h1 := Reach.step _ _ h0 (.pLoadW _ 7 0 rfl rfl)
  have h2 := Reach.step _ _ h1 (.pLoadRFree _ 7 0 0 0 rfl (Nat.le_refl _) rfl (by decide))
  have h3 := Reach.step _ _ h2 (.pConstruct _ 7 0 rfl)
  have h4 := Reach.step _ _ h3 (.pStore _ 7 1 rfl)
  exact ⟨_, h4, rfl⟩

/-- **C04 (stability)** While an element is stored (published and not yet destroyed), a producer
step never changes its slot: readers walking the buffer see it unchanged. -/
theorem C04_producer_preserves_stored (n : Nat) (hn : 2 ≤ n) (s t : St α) (h : Reach n s)
    (st : Step n s t) (hcons : t.c = s.c) (k : Nat) (a : α)
    (hk : s.removed.length + gone s.c ≤ k) (ha : s.committed[k]? = some a) :
    s.slots (k % n) = some a ∧ t.slots (k % n) = some a := by
  have hi := inv_reach n hn s h
  have ht := inv_step n hn s t hi st
  have hlt := lt_of_getElem? ha
  refine ⟨by rw [hi.live k hk hlt, ha], ?_⟩
  have hrem : t.removed.length + gone t.c ≤ k ∧ t.committed[k]? = some a := by
    rw [hcons]
    cases st with
    | pStore v nx h => exact ⟨hk, by rw [List.getElem?_append_left hlt]; exact ha⟩
    | cStore keep nx b h => simp [h] at hcons
    | _ => exact ⟨hk, ha⟩
  rw [ht.live k hrem.1 (lt_of_getElem? hrem.2), hrem.2]

/-- Non-vacuity: a size-2 buffer; one value written, consumer mid-read while the producer has
loaded its index for the next value. -/
example : ∃ s : St Nat, Reach 2 s ∧ s.committed = [7] ∧ s.c = .toMove 0 ∧ s.p = .gotW 8 1 := by
  have h0 := Reach.init (α := Nat) (n := 2)
  have h1 := Reach.step _ _ h0 (.pLoadW _ 7 0 rfl rfl)
  have h2 := Reach.step _ _ h1 (.pLoadRFree _ 7 0 0 0 rfl (Nat.le_refl _) rfl (by decide))
  have h3 := Reach.step _ _ h2 (.pConstruct _ 7 0 rfl)
  have h4 := Reach.step _ _ h3 (.pStore _ 7 1 rfl)
  have h5 := Reach.step _ _ h4 (.cLoadR _ true 0 rfl rfl)
  have h6 := Reach.step _ _ h5 (.cLoadWFull _ true 0 1 1 rfl (by decide) rfl (by decide))
  have h7 := Reach.step _ _ h6 (.pLoadW _ 8 1 rfl rfl)
  exact ⟨_, h7, rfl, rfl, rfl⟩

end Verif.Spsc
