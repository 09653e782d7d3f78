import Verif.ListMemModel
import Verif.ProtocolProps
/- Property C125: the memory of payloads removed from a sorted-list latency buffer. -/
namespace Verif.ListMem

/-- Not freed. -/
def live (x : Mem) (a : Nat) : Prop := a ∈ x.list ∨ a ∈ x.bin

/-- Every payload ever stored is stored, removed or freed, and only one of these. -/
def Account (x : Mem) : Prop := (x.list ++ x.bin ++ x.freed).Perm (List.range x.next)

theorem place_perm (ts : Nat → Nat) (a : Nat) (l : List Nat) : (place ts a l).Perm (a :: l) := by
  induction l with
  | nil => exact List.Perm.refl _
  | cons b l ih =>
    unfold place
    split
    · exact List.Perm.refl _
    · exact (List.Perm.cons b ih).trans (List.Perm.swap a b l)

theorem mem_place (ts : Nat → Nat) (a c : Nat) (l : List Nat) : c ∈ place ts a l ↔ c = a ∨ c ∈ l := by
  rw [(place_perm ts a l).mem_iff]; simp

theorem after_mem {a b : Nat} {l : List Nat} (h : after a l = some b) : b ∈ l := by
  induction l with
  | nil => simp [after] at h
  | cons c l ih =>
    unfold after at h
    split at h
    · exact List.mem_cons_of_mem _ (List.mem_of_head? h)
    · exact List.mem_cons_of_mem _ (ih h)

theorem Account.nodup {x : Mem} (h : Account x) : (x.list ++ x.bin ++ x.freed).Nodup :=
  h.nodup_iff.2 List.nodup_range

theorem Account.not_freed {x : Mem} (h : Account x) {a : Nat} (hl : live x a) : a ∉ x.freed := by
  have := List.nodup_append.1 h.nodup
  intro hf
  exact this.2.2 a (by rw [List.mem_append]; exact hl) a hf rfl

theorem Account.lt {x : Mem} (h : Account x) {a : Nat} (hl : live x a) : a < x.next := by
  have : a ∈ List.range x.next := h.mem_iff.1 (by simp only [List.mem_append]; exact Or.inl hl)
  simpa using this

theorem Account.not_bin {x : Mem} (h : Account x) {a : Nat} (hl : a ∈ x.list) : a ∉ x.bin := by
  have := List.nodup_append.1 (List.nodup_append.1 h.nodup).1
  intro hb
  exact this.2.2 a hl a hb rfl

theorem Account.list_nodup {x : Mem} (h : Account x) : x.list.Nodup :=
  (List.nodup_append.1 (List.nodup_append.1 h.nodup).1).1

/-- Removed payloads point to payloads that are not freed. -/
def Linked (x : Mem) : Prop := ∀ a ∈ x.bin, ∀ b, x.succ a = some b → live x b

theorem account_acquire {x : Mem} (w : Who) (h : Account x) : Account (x.acquire w) := h
theorem linked_acquire {x : Mem} (w : Who) (h : Linked x) : Linked (x.acquire w) := h

theorem account_release {x : Mem} (w : Who) (b : Bool) (h : Account x) : Account (x.release w b) := by
  unfold Mem.release
  split
  · refine List.Perm.trans ?_ h
    show (x.list ++ [] ++ (x.freed ++ x.bin)).Perm _
    rw [List.append_nil, List.append_assoc]
    exact List.Perm.append_left _ List.perm_append_comm
  · exact h

theorem linked_release {x : Mem} (w : Who) (b : Bool) (h : Linked x) : Linked (x.release w b) := by
  unfold Mem.release
  split
  · intro a ha; simp at ha
  · exact h

theorem account_insert {x : Mem} (t : Nat) (h : Account x) : Account (x.insert t) := by
  unfold Mem.insert
  split
  · exact h
  · show (place _ x.next x.list ++ x.bin ++ x.freed).Perm (List.range (x.next + 1))
    rw [List.range_succ]
    refine List.Perm.trans (List.Perm.append_right _ (List.Perm.append_right _ (place_perm _ _ _))) ?_
    refine List.Perm.trans ?_ (List.perm_append_comm (l₁ := [x.next]))
    exact List.Perm.cons _ h

theorem live_insert {x : Mem} (t : Nat) {a : Nat} (h : live x a) : live (x.insert t) a := by
  unfold Mem.insert
  split
  · exact h
  · rcases h with h | h
    · exact Or.inl ((mem_place _ _ _ _).2 (Or.inr h))
    · exact Or.inr h

theorem list_insert {x : Mem} (t : Nat) {a : Nat} (h : a ∈ x.list) : a ∈ (x.insert t).list := by
  unfold Mem.insert
  split
  · exact h
  · exact (mem_place _ _ _ _).2 (Or.inr h)

theorem linked_insert {x : Mem} (t : Nat) (h : Linked x) : Linked (x.insert t) := by
  intro a ha b hb
  apply live_insert
  refine h a ?_ b ?_
  · unfold Mem.insert at ha; split at ha <;> exact ha
  · unfold Mem.insert at hb; split at hb <;> exact hb

theorem account_remove {x : Mem} (a : Nat) (h : Account x) : Account (x.remove a) := by
  unfold Mem.remove
  split
  · rename_i hm
    refine List.Perm.trans ?_ h
    show (x.list.erase a ++ (x.bin ++ [a]) ++ x.freed).Perm (x.list ++ x.bin ++ x.freed)
    refine List.Perm.append_right _ ?_
    refine List.Perm.trans ?_ (List.Perm.append_right _ (List.perm_cons_erase hm).symm)
    rw [← List.append_assoc]
    exact List.perm_append_comm
  · exact h

theorem live_remove {x : Mem} (a : Nat) {b : Nat} (h : live x b) : live (x.remove a) b := by
  unfold Mem.remove
  split
  · by_cases e : b = a
    · right; simp [e]
    · rcases h with h | h
      · left; exact (List.mem_erase_of_ne e).2 h
      · right; exact List.mem_append_left _ h
  · exact h

theorem list_remove {x : Mem} (a : Nat) {b : Nat} (h : b ∈ x.list) (e : b ≠ a) : b ∈ (x.remove a).list := by
  unfold Mem.remove
  split
  · exact (List.mem_erase_of_ne e).2 h
  · exact h

theorem linked_remove {x : Mem} (a : Nat) (h : Linked x) : Linked (x.remove a) := by
  intro c hc b hb
  apply live_remove
  unfold Mem.remove at hc hb
  split at hc
  · rename_i hm
    rw [if_pos hm] at hb
    simp only [upd] at hb
    split at hb
    · exact Or.inl (after_mem hb)
    · rename_i hne
      rcases List.mem_append.1 hc with hc | hc
      · exact h c hc b hb
      · exact absurd (by simpa using hc) hne
  · rename_i hm
    rw [if_neg hm] at hb
    exact h c hc b hb

theorem next_live {x : Mem} (h : Linked x) {a b : Nat} (ha : live x a) (e : x.nextOf a = some b) : live x b := by
  unfold Mem.nextOf at e
  split at e
  · exact Or.inl (after_mem e)
  · rename_i hn
    rcases ha with ha | ha
    · exact absurd ha hn
    · exact h a ha b e

theorem next_list {x : Mem} {a b : Nat} (ha : a ∈ x.list) (e : x.nextOf a = some b) : b ∈ x.list := by
  unfold Mem.nextOf at e
  rw [if_pos ha] at e
  exact after_mem e

theorem lower_mem {x : Mem} {t b : Nat} (e : x.lower t = some b) : b ∈ x.list := List.mem_of_find?_eq_some e

/-- The accessor of the recording, and what it protects. -/
def Guard (x : Mem) (p : Option Nat) : Prop := Who.recorder ∈ x.accs ∧ ∀ a, p = some a → live x a

theorem guard_acquire {x : Mem} (w : Who) {p : Option Nat} (h : Guard x p) : Guard (x.acquire w) p :=
  ⟨List.mem_append_left _ h.1, h.2⟩

theorem guard_release {x : Mem} (w : Who) (b : Bool) {p : Option Nat} (h : Guard x p) (hw : w ≠ .recorder) :
    Guard (x.release w b) p := by
  have hm : Who.recorder ∈ x.accs.erase w := (List.mem_erase_of_ne (Ne.symm hw)).2 h.1
  unfold Mem.release
  rw [if_neg (by rintro ⟨h0, _⟩; rw [h0] at hm; simp at hm)]
  exact ⟨hm, h.2⟩

theorem guard_insert {x : Mem} (t : Nat) {p : Option Nat} (h : Guard x p) : Guard (x.insert t) p := by
  refine ⟨?_, fun a ha => live_insert t (h.2 a ha)⟩
  unfold Mem.insert; split <;> exact h.1

theorem guard_remove {x : Mem} (a : Nat) {p : Option Nat} (h : Guard x p) : Guard (x.remove a) p := by
  refine ⟨?_, fun b hb => live_remove a (h.2 b hb)⟩
  unfold Mem.remove; split <;> exact h.1

theorem list_release {x : Mem} (w : Who) (b : Bool) : (x.release w b).list = x.list := by
  unfold Mem.release; split <;> rfl

/-- The pointers the cleanup has in hand. -/
def clPtrs : Clean → List Nat
  | .ends t h => [t, h]
  | .loop _ h => [h]
  | .next _ h => [h]
  | .got h _ => [h]
  | .ptr h _ => [h]
  | _ => []

/-- The pointers a request has in hand. -/
def rqPtrs : Req → List Nat
  | .fGot p => [p]
  | .fPtr p => [p]
  | .bAcc p => [p]
  | .bGot p q => [p, q]
  | .ptrs p q => [p, q]
  | .second q => [q]
  | .iter x ps => x.toList ++ ps
  | .copy ps => ps
  | _ => []

/-- Cleanups, requests and iterators only meet payloads that are not freed. -/
structure Inv (m : Nat) (s : St) : Prop where
  acc : Account s.mem
  link : Linked s.mem
  prot : Protocol.Reach (m + 1) s.prot
  clP : ∀ a ∈ clPtrs s.cl, a ∈ s.mem.list
  clC : s.cl ≠ .rest → s.prot.cleaner = .cleaning
  rqP : ∀ i, ∀ a ∈ rqPtrs (s.rq i), a ∈ s.mem.list
  rqA : ∀ i, s.rq i ≠ .rest → i < m ∧ s.prot.threads[i]? = some .active
  rcI : ∀ x, s.rc = .iter x → Guard s.mem x
  flt : ∀ f ∈ s.faults, f.1 = .recFront ∨ f.1 = .waiter

theorem read_live {s : St} (h : Account s.mem) (w : Site) {a : Nat} (hl : live s.mem a) : s.read w a = s := by
  unfold St.read; rw [if_neg (h.not_freed hl)]

theorem reads_live {s : St} (h : Account s.mem) (w : Site) (l : List Nat) (hl : ∀ a ∈ l, live s.mem a) :
    s.reads w l = s := by
  unfold St.reads
  induction l with
  | nil => rfl
  | cons a l ih =>
    rw [List.foldl_cons, read_live h w (hl a (by simp))]
    exact ih (fun b hb => hl b (List.mem_cons_of_mem _ hb))

/-- While a cleanup runs no request has anything in hand. -/
theorem no_req {m : Nat} {s : St} (h : Inv m s) (hc : s.prot.cleaner = .cleaning) (i : Nat) : s.rq i = .rest :=
  Classical.byContradiction fun hn =>
    Protocol.C19_cleanup_excludes_requests (m + 1) s.prot h.prot ⟨hc, i, (h.rqA i hn).2⟩

theorem inv_read {m : Nat} {s : St} (h : Inv m s) (w : Site) (a : Nat) (hw : w = .recFront ∨ w = .waiter) :
    Inv m (s.read w a) := by
  unfold St.read
  split
  · refine ⟨h.acc, h.link, h.prot, h.clP, h.clC, h.rqP, h.rqA, h.rcI, ?_⟩
    intro f hf
    rcases List.mem_append.1 hf with hf | hf
    · exact h.flt f hf
    · simp only [List.mem_singleton] at hf; subst hf; exact hw
  · exact h

/-- The memory changes without a removal, and the recording does not lose its accessor. -/
theorem inv_mem {m : Nat} {s : St} (h : Inv m s) (x : Mem) (ha : Account x) (hl : Linked x)
    (hs : ∀ a ∈ s.mem.list, a ∈ x.list) (hg : ∀ p, s.rc = .iter p → Guard x p) : Inv m { s with mem := x } :=
  ⟨ha, hl, h.prot, fun a hm => hs a (h.clP a hm), h.clC, fun i a hm => hs a (h.rqP i a hm), h.rqA, hg, h.flt⟩

theorem inv_acquire {m : Nat} {s : St} (h : Inv m s) (w : Who) : Inv m { s with mem := s.mem.acquire w } :=
  inv_mem h _ h.acc h.link (fun _ ha => ha) (fun p hp => guard_acquire w (h.rcI p hp))

theorem inv_release {m : Nat} {s : St} (h : Inv m s) (w : Who) (b : Bool) (hw : w ≠ .recorder) :
    Inv m { s with mem := s.mem.release w b } :=
  inv_mem h _ (account_release w b h.acc) (linked_release w b h.link) (fun a ha => by rw [list_release]; exact ha)
    (fun p hp => guard_release w b (h.rcI p hp) hw)

/-- The cleanup goes on. -/
theorem inv_cl {m : Nat} {s : St} (h : Inv m s) (c : Clean) (hc : s.prot.cleaner = .cleaning)
    (hp : ∀ a ∈ clPtrs c, a ∈ s.mem.list) : Inv m { s with cl := c } :=
  ⟨h.acc, h.link, h.prot, hp, fun _ => hc, h.rqP, h.rqA, h.rcI, h.flt⟩

/-- A request goes on. -/
theorem inv_rq {m : Nat} {s : St} (h : Inv m s) (i : Nat) (r : Req) (hi : i < m)
    (ha : s.prot.threads[i]? = some .active) (hp : ∀ a ∈ rqPtrs r, a ∈ s.mem.list) : Inv m { s with rq := upd s.rq i r } := by
  refine ⟨h.acc, h.link, h.prot, h.clP, h.clC, ?_, ?_, h.rcI, h.flt⟩
  · intro j a hm
    simp only [upd] at hm
    split at hm
    · exact hp a hm
    · exact h.rqP j a hm
  · intro j hj
    simp only [upd] at hj
    split at hj
    · rename_i e; subst e; exact ⟨hi, ha⟩
    · exact h.rqA j hj

/-- The recording goes on. -/
theorem inv_rc {m : Nat} {s : St} (h : Inv m s) (r : Rec) (hg : ∀ x, r = .iter x → Guard s.mem x) :
    Inv m { s with rc := r } := ⟨h.acc, h.link, h.prot, h.clP, h.clC, h.rqP, h.rqA, hg, h.flt⟩

/-- The recording leaves `front()` or its iterator. -/
theorem inv_rcOut {m : Nat} {s : St} (h : Inv m s) (r : Rec) (b : Bool) (hr : ∀ x, r ≠ .iter x) :
    Inv m { s with mem := s.mem.release .recorder b, rc := r } := by
  refine ⟨account_release _ b h.acc, linked_release _ b h.link, h.prot, ?_, h.clC, ?_, h.rqA, fun x e => absurd e (hr x), h.flt⟩
  · intro a ha; rw [list_release]; exact h.clP a ha
  · intro i a ha; rw [list_release]; exact h.rqP i a ha

theorem inv_wt {m : Nat} {s : St} (h : Inv m s) (w : Wait) : Inv m { s with wt := w } :=
  ⟨h.acc, h.link, h.prot, h.clP, h.clC, h.rqP, h.rqA, h.rcI, h.flt⟩

/-- A removal, by a cleanup with no pointer left, or with no cleanup. -/
theorem inv_remove {m : Nat} {s : St} (h : Inv m s) (a : Nat) (c : Clean) (hr : ∀ i, s.rq i = .rest)
    (hc : c ≠ .rest → s.prot.cleaner = .cleaning) (hp : clPtrs c = []) :
    Inv m { s with mem := s.mem.remove a, cl := c } := by
  refine ⟨account_remove a h.acc, linked_remove a h.link, h.prot, ?_, hc, ?_, h.rqA,
    fun p hp => guard_remove a (h.rcI p hp), h.flt⟩
  · intro b hb; rw [hp] at hb; simp at hb
  · intro i b hb
    have hb : b ∈ rqPtrs (s.rq i) := hb
    rw [hr i] at hb; simp [rqPtrs] at hb

theorem set_active {l : List Protocol.RPc} {i j : Nat} (p : Protocol.RPc) (h : l[j]? = some .active) (e : i ≠ j) :
    (l.set i p)[j]? = some .active := by rw [List.getElem?_set_ne e]; exact h

theorem inv_step {oldest lazy : Bool} {m : Nat} {s s' : St} (h : Inv m s) (st : Step oldest lazy m s s') : Inv m s' := by
  cases st with
  | sizeBegin k => exact inv_acquire h _
  | sizeEnd k later hk => exact inv_release h _ _ (by simp)
  | consAcc t hc => exact ⟨(inv_acquire h .consumer).1, h.link, h.prot, h.clP, h.clC, h.rqP, h.rqA,
      (inv_acquire h .consumer).rcI, h.flt⟩
  | consInsert t hc =>
    have := inv_mem h (s.mem.insert t) (account_insert t h.acc) (linked_insert t h.link) (fun a ha => list_insert t ha)
      (fun p hp => guard_insert t (h.rcI p hp))
    exact ⟨this.acc, this.link, this.prot, this.clP, this.clC, this.rqP, this.rqA, this.rcI, this.flt⟩
  | consEnd later hc =>
    have := inv_release h .consumer (lazy && later) (by simp)
    exact ⟨this.acc, this.link, this.prot, this.clP, this.clC, this.rqP, this.rqA, this.rcI, this.flt⟩
  | dBegin hk hp hc => exact inv_cl (inv_acquire h .cleaner) .held hp (by simp [clPtrs])
  | dEnds a b hc ht hh =>
    refine inv_cl h _ (h.clC (by rw [hc]; simp)) ?_
    intro c hm
    simp only [clPtrs, List.mem_cons, List.not_mem_nil, or_false] at hm
    rcases hm with rfl | rfl
    · exact List.mem_of_getLast? ht
    · exact List.mem_of_head? hh
  | dEmpty hc hn => exact inv_cl h _ (h.clC (by rw [hc]; simp)) (by simp [clPtrs])
  | dOver a b hc hd =>
    have ha : a ∈ s.mem.list := h.clP a (by rw [hc]; simp [clPtrs])
    have hb : b ∈ s.mem.list := h.clP b (by rw [hc]; simp [clPtrs])
    rw [read_live h.acc _ (Or.inl ha), read_live h.acc _ (Or.inl hb)]
    exact inv_cl h _ (h.clC (by rw [hc]; simp)) (by simpa [clPtrs] using hb)
  | dUnder a b hc hd =>
    have ha : a ∈ s.mem.list := h.clP a (by rw [hc]; simp [clPtrs])
    have hb : b ∈ s.mem.list := h.clP b (by rw [hc]; simp [clPtrs])
    rw [read_live h.acc _ (Or.inl ha), read_live h.acc _ (Or.inl hb)]
    exact inv_cl h _ (h.clC (by rw [hc]; simp)) (by simp [clPtrs])
  | dRemove t b hc =>
    have hb : b ∈ s.mem.list := h.clP b (by rw [hc]; simp [clPtrs])
    have hcl := h.clC (by rw [hc]; simp)
    rw [read_live h.acc _ (Or.inl hb)]
    exact inv_remove h b _ (no_req h hcl) (fun _ => hcl) rfl
  | dFirst t b hc hh =>
    exact inv_cl h _ (h.clC (by rw [hc]; simp)) (by simpa [clPtrs] using List.mem_of_head? hh)
  | dOn t b hc hd =>
    have hb : b ∈ s.mem.list := h.clP b (by rw [hc]; simp [clPtrs])
    rw [read_live h.acc _ (Or.inl hb)]
    exact inv_cl h _ (h.clC (by rw [hc]; simp)) (by simpa [clPtrs] using hb)
  | dStop t b hc hd =>
    have hb : b ∈ s.mem.list := h.clP b (by rw [hc]; simp [clPtrs])
    rw [read_live h.acc _ (Or.inl hb)]
    exact inv_cl h _ (h.clC (by rw [hc]; simp)) (by simp [clPtrs])
  | dEnd later hc =>
    exact inv_cl (inv_release h .cleaner (lazy && later) (by simp)) .done (h.clC (by rw [hc]; simp)) (by simp [clPtrs])
  | lBegin n hk hp hc => exact inv_cl h _ hp (by simp [clPtrs])
  | lSkip hk hp hc => exact inv_cl h _ hp (by simp [clPtrs])
  | lAcc n hc => exact inv_cl (inv_acquire h .cleaner) _ (h.clC (by rw [hc]; simp)) (by simp [clPtrs])
  | lFront n b hc hh =>
    exact inv_cl h _ (h.clC (by rw [hc]; simp)) (by simpa [clPtrs] using List.mem_of_head? hh)
  | lPtr n b later hc =>
    have hb : b ∈ s.mem.list := h.clP b (by rw [hc]; simp [clPtrs])
    exact inv_cl (inv_release h .cleaner (lazy && later) (by simp)) (.ptr b n) (h.clC (by rw [hc]; simp))
      (by simpa [clPtrs, list_release] using hb)
  | lOld n b hc =>
    have hb : b ∈ s.mem.list := h.clP b (by rw [hc]; simp [clPtrs])
    rw [read_live h.acc _ (Or.inl hb)]
    exact inv_cl h _ (h.clC (by rw [hc]; simp)) (by simp [clPtrs])
  | lBreak n b hc =>
    have hb : b ∈ s.mem.list := h.clP b (by rw [hc]; simp [clPtrs])
    rw [read_live h.acc _ (Or.inl hb)]
    exact inv_cl h _ (h.clC (by rw [hc]; simp)) (by simp [clPtrs])
  | lPop n hc => exact inv_cl (inv_acquire h .cleaner) _ (h.clC (by rw [hc]; simp)) (by simp [clPtrs])
  | lRemove n a hc ht =>
    have hcl := h.clC (by rw [hc]; simp)
    exact inv_remove h a _ (no_req h hcl) (fun _ => hcl) rfl
  | lAgain n later hc =>
    exact inv_cl (inv_release h .cleaner (lazy && later) (by simp)) _ (h.clC (by rw [hc]; simp)) (by simp [clPtrs])
  | lEnd b hc =>
    have hb : b ∈ s.mem.list := h.clP b (by rw [hc]; simp [clPtrs])
    rw [read_live h.acc _ (Or.inl hb)]
    exact inv_cl h _ (h.clC (by rw [hc]; simp)) (by simp [clPtrs])
  | cleaned hp hc =>
    exact ⟨h.acc, h.link, .own _ _ h.prot (Or.inr (.cleaned _ hp)), by simp [clPtrs], fun e => absurd rfl e, h.rqP, h.rqA,
      h.rcI, h.flt⟩
  | qFront i hi hp hc => exact inv_rq (inv_acquire h (.req i)) i .fAcc hi hp (by simp [rqPtrs])
  | qFirst i p hc hh =>
    obtain ⟨hi, ha⟩ := h.rqA i (by rw [hc]; simp)
    exact inv_rq h i _ hi ha (by simpa [rqPtrs] using List.mem_of_head? hh)
  | qFrontEnd i p later hc =>
    obtain ⟨hi, ha⟩ := h.rqA i (by rw [hc]; simp)
    exact inv_rq (inv_release h (.req i) (lazy && later) (by simp)) i (.fPtr p) hi ha
      (by simpa [rqPtrs, list_release] using h.rqP i p (by rw [hc]; simp [rqPtrs]))
  | qBack i p hc =>
    obtain ⟨hi, ha⟩ := h.rqA i (by rw [hc]; simp)
    exact inv_rq (inv_acquire h (.req i)) i (.bAcc p) hi ha
      (by simpa [rqPtrs, Mem.acquire] using h.rqP i p (by rw [hc]; simp [rqPtrs]))
  | qLast i p q hc ht =>
    obtain ⟨hi, ha⟩ := h.rqA i (by rw [hc]; simp)
    refine inv_rq h i _ hi ha ?_
    intro c hm
    simp only [rqPtrs, List.mem_cons, List.not_mem_nil, or_false] at hm
    rcases hm with rfl | rfl
    · exact h.rqP i _ (by rw [hc]; simp [rqPtrs])
    · exact List.mem_of_getLast? ht
  | qBackEnd i p q later hc =>
    obtain ⟨hi, ha⟩ := h.rqA i (by rw [hc]; simp)
    refine inv_rq (inv_release h (.req i) (lazy && later) (by simp)) i (.ptrs p q) hi ha ?_
    intro c hm
    show c ∈ (s.mem.release (.req i) (lazy && later)).list
    rw [list_release]
    exact h.rqP i c (by rw [hc]; exact hm)
  | qOldest i p q hc =>
    obtain ⟨hi, ha⟩ := h.rqA i (by rw [hc]; simp)
    rw [read_live h.acc _ (Or.inl (h.rqP i p (by rw [hc]; simp [rqPtrs])))]
    exact inv_rq h i _ hi ha (by simpa [rqPtrs] using h.rqP i q (by rw [hc]; simp [rqPtrs]))
  | qNewest i q hc =>
    obtain ⟨hi, ha⟩ := h.rqA i (by rw [hc]; simp)
    rw [read_live h.acc _ (Or.inl (h.rqP i q (by rw [hc]; simp [rqPtrs])))]
    exact inv_rq h i _ hi ha (by simp [rqPtrs])
  | qLower i t hc =>
    obtain ⟨hi, ha⟩ := h.rqA i (by rw [hc]; simp)
    refine inv_rq (inv_acquire h (.req i)) i (.iter (s.mem.lower t) []) hi ha ?_
    intro a hm
    simp only [rqPtrs, List.append_nil, Option.mem_toList] at hm
    exact lower_mem hm
  | qWalk i x ps take hc =>
    obtain ⟨hi, ha⟩ := h.rqA i (by rw [hc]; simp)
    have hx : x ∈ s.mem.list := h.rqP i x (by rw [hc]; simp [rqPtrs])
    rw [read_live h.acc _ (Or.inl hx)]
    refine inv_rq h i _ hi ha ?_
    intro a hm
    simp only [rqPtrs, List.mem_append, Option.mem_toList] at hm
    rcases hm with hm | hm
    · exact next_list hx hm
    · have hps : ∀ b ∈ ps, b ∈ s.mem.list := fun b hb => h.rqP i b (by rw [hc]; simp [rqPtrs, hb])
      split at hm
      · rcases List.mem_append.1 hm with hm | hm
        · exact hps a hm
        · simp only [List.mem_singleton] at hm; subst hm; exact hx
      · exact hps a hm
  | qIterEnd i x ps later hc =>
    obtain ⟨hi, ha⟩ := h.rqA i (by rw [hc]; simp)
    refine inv_rq (inv_release h (.req i) (lazy && later) (by simp)) i (.copy ps) hi ha ?_
    intro c hm
    show c ∈ (s.mem.release (.req i) (lazy && later)).list
    rw [list_release]
    exact h.rqP i c (by rw [hc]; exact List.mem_append_right _ hm)
  | qCopy i ps hc =>
    obtain ⟨hi, ha⟩ := h.rqA i (by rw [hc]; simp)
    rw [reads_live h.acc _ ps (fun a hm => Or.inl (h.rqP i a (by rw [hc]; exact hm)))]
    exact inv_rq h i _ hi ha (by simp [rqPtrs])
  | qNothing i hc hp hi => exact inv_rq h i _ hi hp (by simp [rqPtrs])
  | qServed i hp hc =>
    refine ⟨h.acc, h.link, .own _ _ h.prot (Or.inl (.served _ i hp)), h.clP, h.clC, ?_, ?_, h.rcI, h.flt⟩
    · intro j a hm
      simp only [upd] at hm
      split at hm
      · simp [rqPtrs] at hm
      · exact h.rqP j a hm
    · intro j hj
      simp only [upd] at hj
      split at hj
      · exact absurd rfl hj
      · rename_i hne
        exact ⟨(h.rqA j hj).1, set_active _ (h.rqA j hj).2 (Ne.symm hne)⟩
  | rBegin hc => exact inv_rc h _ (by simp)
  | rFront hc => exact inv_rc (inv_acquire h .recorder) .fAcc (by simp)
  | rFirst p hc hh => exact inv_rc h _ (by simp)
  | rNone later hc hn => exact inv_rcOut h _ _ (by simp)
  | rFrontEnd p later hc => exact inv_rcOut h _ _ (by simp)
  | rTime p hc => exact inv_rc (inv_read h _ p (Or.inl rfl)) _ (by simp)
  | rKnown hc => exact inv_rc h _ (by simp)
  | rLower t hc hp =>
    refine inv_rc (inv_acquire h .recorder) (.iter (s.mem.lower t)) ?_
    intro x hx
    injection hx with hx
    subst hx
    exact ⟨by simp [Mem.acquire], fun a ha => Or.inl (lower_mem ha)⟩
  | rServed x hc hp =>
    refine ⟨h.acc, h.link, .own _ _ h.prot (Or.inl (.served _ m hp)), h.clP, h.clC, h.rqP, ?_, h.rcI, h.flt⟩
    intro j hj
    exact ⟨(h.rqA j hj).1, set_active _ (h.rqA j hj).2 (by have := (h.rqA j hj).1; omega)⟩
  | rWalk x hc hp =>
    have hg := h.rcI _ hc
    have hx := hg.2 x rfl
    rw [read_live h.acc _ hx]
    refine inv_rc h _ ?_
    intro y hy
    injection hy with hy
    subst hy
    exact ⟨hg.1, fun a ha => next_live h.link hx ha⟩
  | rIterEnd x later hc hp => exact inv_rcOut h _ _ (by simp)
  | rEnd hc => exact inv_rc h _ (by simp)
  | wBack hc => exact inv_wt (inv_acquire h .waiter) _
  | wLast p hc ht => exact inv_wt h _
  | wNone later hc hn => exact inv_wt (inv_release h .waiter _ (by simp)) _
  | wBackEnd p later hc => exact inv_wt (inv_release h .waiter _ (by simp)) _
  | wTime p hc => exact inv_wt (inv_read h _ p (Or.inr rfl)) _
  | fBegin hq hf => exact inv_acquire h _
  | fRemove a hq hf ht =>
    have := inv_remove h a s.cl hq.2.1 (fun e => absurd hq.1 e) (by rw [hq.1]; rfl)
    exact this
  | fEnd later hq hf => exact inv_release h _ _ (by simp)
  | prot p st ha hc =>
    refine ⟨h.acc, h.link, ?_, h.clP, fun e => hc (h.clC e), h.rqP, fun i hi => ⟨(h.rqA i hi).1, ha i (h.rqA i hi).2⟩,
      h.rcI, h.flt⟩
    rcases st with st | st
    · exact .own _ _ h.prot st
    · exact .env _ _ h.prot st

theorem inv_reach {oldest lazy : Bool} {m : Nat} {s : St} (h : Reach oldest lazy m s) : Inv m s := by
  induction h with
  | init =>
    exact ⟨by simp [Account, St.init, Mem.init], by intro a ha; simp [St.init, Mem.init] at ha, .init, by simp [St.init, clPtrs],
      fun e => absurd rfl e, by simp [St.init, rqPtrs], fun i e => absurd rfl e, by simp [St.init], by simp [St.init]⟩
  | step s s' _ st ih => exact inv_step ih st

/-- **C125** (part) With any number of request threads, either cleanup, all interleavings: memory that was freed is read only
by the recording when it determines its first position, and by the waiting requests. Requests (the copying into the fragment
after the iterator is gone included), cleanups, and the recording while it writes, only read payloads that are not freed. -/
theorem C125_partial (oldest lazy : Bool) (m : Nat) (s : St) (h : Reach oldest lazy m s) :
    ∀ f ∈ s.faults, f.1 = .recFront ∨ f.1 = .waiter := (inv_reach h).flt

/-- **C125** Every payload ever stored is in the list, waits to be freed, or was freed once: nothing is lost and nothing is freed
twice or while it is stored. -/
theorem C125_account (oldest lazy : Bool) (m : Nat) (s : St) (h : Reach oldest lazy m s) :
    (s.mem.list ++ s.mem.bin ++ s.mem.freed).Perm (List.range s.mem.next) := (inv_reach h).acc

/-! ### The cleanup by difference of times -/

/-- A payload later by the whole difference of times has been stored. -/
def late (x : Mem) (a : Nat) : Prop := a < x.next ∧ ∃ b < x.next, x.ts a + maxDiff ≤ x.ts b

/-- In order of times. -/
def Sorted (x : Mem) : Prop := x.list.Pairwise (fun a b => x.ts a < x.ts b)

/-- What the cleanup knows. -/
def clOk (x : Mem) : Clean → Prop
  | .rest | .done | .held | .fin => True
  | .ends a b => x.ts b ≤ x.ts a
  | .loop t b => x.ts b + maxDiff ≤ t ∧ ∃ c ∈ x.list, x.ts c = t
  | .again t => ∃ c ∈ x.list, x.ts c = t
  | .next t b => (∃ c ∈ x.list, x.ts c = t) ∧ x.ts b ≤ t
  | _ => False

/-- Pointers without accessor: of the waiting requests. -/
def wtPtrs : Wait → List Nat
  | .got p => [p]
  | .ptr p => [p]
  | _ => []

/-- Pointers without accessor: of the recording. -/
def rcPtrs : Rec → List Nat
  | .fGot p => [p]
  | .fPtr p => [p]
  | _ => []

structure Old (s : St) : Prop where
  sorted : Sorted s.mem
  cl : clOk s.mem s.cl
  wt : ∀ p ∈ wtPtrs s.wt, p ∈ s.mem.list ∨ late s.mem p
  rc : ∀ p ∈ rcPtrs s.rc, p ∈ s.mem.list ∨ late s.mem p
  flt : ∀ f ∈ s.faults, late s.mem f.2

theorem sorted_place {ts : Nat → Nat} {a : Nat} {l : List Nat} (h : l.Pairwise (fun a b => ts a < ts b))
    (hn : ∀ b ∈ l, ts b ≠ ts a) : (place ts a l).Pairwise (fun a b => ts a < ts b) := by
  induction l with
  | nil => simp [place]
  | cons b l ih =>
    have hp := List.pairwise_cons.1 h
    unfold place
    split
    · rename_i hlt
      refine List.pairwise_cons.2 ⟨?_, h⟩
      intro c hc
      rcases List.mem_cons.1 hc with rfl | hc
      · exact hlt
      · exact Nat.lt_trans hlt (hp.1 c hc)
    · rename_i hge
      refine List.pairwise_cons.2 ⟨?_, ih hp.2 (fun c hc => hn c (List.mem_cons_of_mem _ hc))⟩
      intro c hc
      rcases (mem_place _ _ _ _).1 hc with rfl | hc
      · have := hn b (by simp); omega
      · exact hp.1 c hc

/-- Memory changes that keep what is stored. -/
structure Ext (x y : Mem) : Prop where
  list : ∀ a ∈ x.list, a ∈ y.list
  next : x.next ≤ y.next
  ts : ∀ a < x.next, y.ts a = x.ts a
  sorted : Sorted x → Sorted y

theorem ext_acquire (x : Mem) (w : Who) : Ext x (x.acquire w) :=
  ⟨fun _ h => h, Nat.le_refl _, fun _ _ => rfl, fun h => h⟩

theorem ext_release (x : Mem) (w : Who) (b : Bool) : Ext x (x.release w b) := by
  unfold Mem.release
  split <;> exact ⟨fun _ h => h, Nat.le_refl _, fun _ _ => rfl, fun h => h⟩

theorem ext_insert {x : Mem} (t : Nat) (ha : Account x) : Ext x (x.insert t) := by
  refine ⟨fun a h => list_insert t h, ?_, ?_, ?_⟩
  · unfold Mem.insert; split
    · exact Nat.le_refl _
    · exact Nat.le_succ _
  · intro a hlt
    unfold Mem.insert; split
    · rfl
    · show upd x.ts x.next t a = x.ts a
      simp only [upd]; rw [if_neg (by omega)]
  · intro hs
    unfold Mem.insert; split
    · exact hs
    · rename_i hn
      refine sorted_place ?_ ?_
      · refine List.Pairwise.imp_of_mem ?_ hs
        intro a b h1 h2 hab
        have l1 := ha.lt (Or.inl h1)
        have l2 := ha.lt (Or.inl h2)
        simp only [upd]
        rw [if_neg (by omega), if_neg (by omega)]; exact hab
      · intro b hb e
        have l1 := ha.lt (Or.inl hb)
        simp only [upd] at e
        rw [if_neg (by omega)] at e
        simp only [if_true] at e
        exact hn ⟨b, hb, e⟩

theorem late_ext {x y : Mem} (e : Ext x y) {a : Nat} (h : late x a) : late y a := by
  obtain ⟨ha, b, hb, hd⟩ := h
  refine ⟨Nat.lt_of_lt_of_le ha e.next, b, Nat.lt_of_lt_of_le hb e.next, ?_⟩
  rw [e.ts a ha, e.ts b hb]; exact hd

theorem clOk_ext {x y : Mem} (e : Ext x y) (ha : Account x) {c : Clean} (hp : ∀ a ∈ clPtrs c, a ∈ x.list) (h : clOk x c) :
    clOk y c := by
  have lt : ∀ a ∈ x.list, a < x.next := fun a hm => ha.lt (Or.inl hm)
  have ex : ∀ t, (∃ c ∈ x.list, x.ts c = t) → ∃ c ∈ y.list, y.ts c = t := by
    rintro t ⟨c, hc, rfl⟩
    exact ⟨c, e.list c hc, e.ts c (lt c hc)⟩
  cases c with
  | ends a b =>
    have h1 := e.ts a (lt a (hp a (by simp [clPtrs])))
    have h2 := e.ts b (lt b (hp b (by simp [clPtrs])))
    simp only [clOk] at h ⊢
    rw [h1, h2]; exact h
  | loop t b =>
    have h2 := e.ts b (lt b (hp b (by simp [clPtrs])))
    simp only [clOk] at h ⊢
    rw [h2]; exact ⟨h.1, ex t h.2⟩
  | again t => exact ex t h
  | next t b =>
    have h2 := e.ts b (lt b (hp b (by simp [clPtrs])))
    simp only [clOk] at h ⊢
    rw [h2]; exact ⟨ex t h.1, h.2⟩
  | rest => trivial
  | done => trivial
  | held => trivial
  | fin => trivial
  | _ => exact h

theorem old_ext {m : Nat} {s : St} (hi : Inv m s) (h : Old s) {y : Mem} (e : Ext s.mem y) : Old { s with mem := y } := by
  refine ⟨e.sorted h.sorted, clOk_ext e hi.acc hi.clP h.cl, ?_, ?_, fun f hf => late_ext e (h.flt f hf)⟩
  · intro p hp
    rcases h.wt p hp with hp | hp
    · exact Or.inl (e.list p hp)
    · exact Or.inr (late_ext e hp)
  · intro p hp
    rcases h.rc p hp with hp | hp
    · exact Or.inl (e.list p hp)
    · exact Or.inr (late_ext e hp)

theorem old_cl {s : St} (h : Old s) (c : Clean) (hc : clOk s.mem c) : Old { s with cl := c } := ⟨h.sorted, hc, h.wt, h.rc, h.flt⟩

theorem old_read {m : Nat} {s : St} (hi : Inv m s) (h : Old s) (w : Site) (a : Nat) (ha : a ∈ s.mem.list ∨ late s.mem a) :
    Old (s.read w a) := by
  unfold St.read
  split
  · rename_i hf
    refine ⟨h.sorted, h.cl, h.wt, h.rc, ?_⟩
    intro f hm
    rcases List.mem_append.1 hm with hm | hm
    · exact h.flt f hm
    · simp only [List.mem_singleton] at hm
      subst hm
      rcases ha with ha | ha
      · exact absurd hf (hi.acc.not_freed (Or.inl ha))
      · exact ha
  · exact h

theorem old_reads {m : Nat} {s : St} (hi : Inv m s) (h : Old s) (w : Site) (l : List Nat) (hl : ∀ a ∈ l, a ∈ s.mem.list) :
    Old (s.reads w l) := by
  rw [reads_live hi.acc w l (fun a ha => Or.inl (hl a ha))]; exact h

theorem getLast_le {x : Mem} (hs : Sorted x) {a b : Nat} (ht : x.list.getLast? = some a) (hb : b ∈ x.list) :
    x.ts b ≤ x.ts a := by
  obtain ⟨l, e⟩ : ∃ l, x.list = l ++ [a] := ⟨_, (List.getLast?_eq_some_iff.1 ht).choose_spec⟩
  unfold Sorted at hs
  rw [e] at hs hb
  rcases List.mem_append.1 hb with hb | hb
  · exact Nat.le_of_lt ((List.pairwise_append.1 hs).2.2 b hb a (by simp))
  · simp only [List.mem_singleton] at hb; subst hb; exact Nat.le_refl _

theorem head_le {x : Mem} (hs : Sorted x) {a b : Nat} (hh : x.list.head? = some a) (hb : b ∈ x.list) : x.ts a ≤ x.ts b := by
  obtain ⟨l, e⟩ := List.head?_eq_some_iff.1 hh
  unfold Sorted at hs
  rw [e] at hs hb
  rcases List.mem_cons.1 hb with rfl | hb
  · exact Nat.le_refl _
  · exact Nat.le_of_lt ((List.pairwise_cons.1 hs).1 b hb)

theorem remove_ts (x : Mem) (a : Nat) : (x.remove a).ts = x.ts := by unfold Mem.remove; split <;> rfl
theorem remove_next (x : Mem) (a : Nat) : (x.remove a).next = x.next := by unfold Mem.remove; split <;> rfl

theorem sorted_remove {x : Mem} (a : Nat) (h : Sorted x) : Sorted (x.remove a) := by
  unfold Sorted
  rw [remove_ts]
  unfold Mem.remove
  split
  · exact List.Pairwise.sublist List.erase_sublist h
  · exact h

theorem late_remove {x : Mem} (a : Nat) {b : Nat} (h : late x b) : late (x.remove a) b := by
  unfold late; rw [remove_ts, remove_next]; exact h

theorem old_step {lazy : Bool} {m : Nat} {s s' : St} (hi : Inv m s) (h : Old s) (st : Step true lazy m s s') : Old s' := by
  have cons : ∀ (s : St) (c : Cons), Old s → Old { s with cons := c } := fun s c h => ⟨h.sorted, h.cl, h.wt, h.rc, h.flt⟩
  have rq : ∀ (s : St) (c : Nat → Req), Old s → Old { s with rq := c } := fun s c h => ⟨h.sorted, h.cl, h.wt, h.rc, h.flt⟩
  have acq : ∀ w, Old { s with mem := s.mem.acquire w } := fun w => old_ext hi h (ext_acquire _ _)
  have rel : ∀ w b, Old { s with mem := s.mem.release w b } := fun w b => old_ext hi h (ext_release _ _ _)
  have rdl : ∀ w a, a ∈ s.mem.list → s.read w a = s := fun w a ha => read_live hi.acc w (Or.inl ha)
  have wt : ∀ (s : St) (c : Wait), (∀ p ∈ wtPtrs c, p ∈ s.mem.list ∨ late s.mem p) → Old s → Old { s with wt := c } :=
    fun s c hc h => ⟨h.sorted, h.cl, hc, h.rc, h.flt⟩
  have rc : ∀ (s : St) (c : Rec), (∀ p ∈ rcPtrs c, p ∈ s.mem.list ∨ late s.mem p) → Old s → Old { s with rc := c } :=
    fun s c hc h => ⟨h.sorted, h.cl, h.wt, hc, h.flt⟩
  have clp : ∀ a c, s.cl = c → a ∈ clPtrs c → a ∈ s.mem.list := fun a c e ha => hi.clP a (by rw [e]; exact ha)
  have rqp : ∀ i a c, s.rq i = c → a ∈ rqPtrs c → a ∈ s.mem.list := fun i a c e ha => hi.rqP i a (by rw [e]; exact ha)
  have clk : ∀ c, s.cl = c → clOk s.mem c := fun c e => by rw [← e]; exact h.cl
  cases st with
  | sizeBegin k => exact acq _
  | sizeEnd k later hk => exact rel _ _
  | consAcc t hc => exact cons _ _ (acq _)
  | consInsert t hc => exact cons _ _ (old_ext hi h (ext_insert t hi.acc))
  | consEnd later hc => exact cons _ _ (rel _ _)
  | dBegin hk hp hc => exact old_cl (acq _) _ trivial
  | dEnds a b hc ht hh => exact old_cl h _ (getLast_le h.sorted ht (List.mem_of_head? hh))
  | dEmpty hc hn => exact old_cl h _ trivial
  | dOver a b hc hd =>
    have ha := clp a _ hc (by simp [clPtrs])
    rw [rdl _ _ ha, rdl _ _ (clp b _ hc (by simp [clPtrs]))]
    exact old_cl h _ ⟨by omega, a, ha, rfl⟩
  | dUnder a b hc hd =>
    rw [rdl _ _ (clp a _ hc (by simp [clPtrs])), rdl _ _ (clp b _ hc (by simp [clPtrs]))]
    exact old_cl h _ trivial
  | dRemove t b hc =>
    have hb := clp b _ hc (by simp [clPtrs])
    rw [rdl _ _ hb]
    obtain ⟨hd, c, hcm, rfl⟩ := clk _ hc
    have hl : late s.mem b := ⟨hi.acc.lt (Or.inl hb), c, hi.acc.lt (Or.inl hcm), hd⟩
    have keep : ∀ p, p ∈ s.mem.list ∨ late s.mem p → p ∈ (s.mem.remove b).list ∨ late (s.mem.remove b) p := by
      rintro p (hp | hp)
      · by_cases e : p = b
        · subst e; exact Or.inr (late_remove _ hl)
        · exact Or.inl (list_remove b hp e)
      · exact Or.inr (late_remove _ hp)
    refine ⟨sorted_remove b h.sorted, ?_, fun p hp => keep p (h.wt p hp), fun p hp => keep p (h.rc p hp),
      fun f hf => late_remove b (h.flt f hf)⟩
    refine ⟨c, list_remove b hcm ?_, by rw [remove_ts]⟩
    rintro rfl
    simp only [maxDiff] at hd
    omega
  | dFirst t b hc hh =>
    obtain ⟨c, hcm, rfl⟩ := clk _ hc
    exact old_cl h _ ⟨⟨c, hcm, rfl⟩, head_le h.sorted hh hcm⟩
  | dOn t b hc hd =>
    rw [rdl _ _ (clp b _ hc (by simp [clPtrs]))]
    obtain ⟨hex, hle⟩ := clk _ hc
    exact old_cl h _ ⟨by omega, hex⟩
  | dStop t b hc hd =>
    rw [rdl _ _ (clp b _ hc (by simp [clPtrs]))]
    exact old_cl h _ trivial
  | dEnd later hc => exact old_cl (rel _ _) _ trivial
  | lBegin n hk hp hc => exact absurd hk (by simp)
  | lSkip hk hp hc => exact absurd hk (by simp)
  | lAcc n hc => exact (clk _ hc).elim
  | lFront n b hc hh => exact (clk _ hc).elim
  | lPtr n b later hc => exact (clk _ hc).elim
  | lOld n b hc => exact (clk _ hc).elim
  | lBreak n b hc => exact (clk _ hc).elim
  | lPop n hc => exact (clk _ hc).elim
  | lRemove n a hc ht => exact (clk _ hc).elim
  | lAgain n later hc => exact (clk _ hc).elim
  | lEnd b hc => exact (clk _ hc).elim
  | cleaned hp hc => exact ⟨h.sorted, trivial, h.wt, h.rc, h.flt⟩
  | qFront i hi' hp hc => exact rq _ _ (acq _)
  | qFirst i p hc hh => exact rq _ _ h
  | qFrontEnd i p later hc => exact rq _ _ (rel _ _)
  | qBack i p hc => exact rq _ _ (acq _)
  | qLast i p q hc ht => exact rq _ _ h
  | qBackEnd i p q later hc => exact rq _ _ (rel _ _)
  | qOldest i p q hc => exact rq _ _ (old_read hi h _ _ (Or.inl (rqp i p _ hc (by simp [rqPtrs]))))
  | qNewest i q hc => exact rq _ _ (old_read hi h _ _ (Or.inl (rqp i q _ hc (by simp [rqPtrs]))))
  | qLower i t hc => exact rq _ _ (acq _)
  | qWalk i x ps take hc => exact rq _ _ (old_read hi h _ _ (Or.inl (rqp i x _ hc (by simp [rqPtrs]))))
  | qIterEnd i x ps later hc => exact rq _ _ (rel _ _)
  | qCopy i ps hc => exact rq _ _ (old_reads hi h _ _ (fun a ha => rqp i a _ hc ha))
  | qNothing i hc hp hi' => exact rq _ _ h
  | qServed i hp hc => exact ⟨h.sorted, h.cl, h.wt, h.rc, h.flt⟩
  | rBegin hc => exact rc _ _ (by simp [rcPtrs]) h
  | rFront hc => exact rc _ _ (by simp [rcPtrs]) (acq _)
  | rFirst p hc hh =>
    refine rc _ _ ?_ h
    intro q hq
    simp only [rcPtrs, List.mem_singleton] at hq
    subst hq; exact Or.inl (List.mem_of_head? hh)
  | rNone later hc hn => exact rc _ _ (by simp [rcPtrs]) (rel _ _)
  | rFrontEnd p later hc =>
    refine rc _ _ ?_ (rel _ _)
    have := (rel .recorder (lazy && later)).rc
    simp only [hc] at this
    exact this
  | rTime p hc =>
    refine rc _ _ (by simp [rcPtrs]) (old_read hi h _ _ (h.rc p (by rw [hc]; simp [rcPtrs])))
  | rKnown hc => exact rc _ _ (by simp [rcPtrs]) h
  | rLower t hc hp => exact rc _ _ (by simp [rcPtrs]) (acq _)
  | rServed x hc hp => exact ⟨h.sorted, h.cl, h.wt, h.rc, h.flt⟩
  | rWalk x hc hp =>
    rw [read_live hi.acc _ ((hi.rcI _ hc).2 x rfl)]
    exact rc _ _ (by simp [rcPtrs]) h
  | rIterEnd x later hc hp => exact rc _ _ (by simp [rcPtrs]) (rel _ _)
  | rEnd hc => exact rc _ _ (by simp [rcPtrs]) h
  | wBack hc => exact wt _ _ (by simp [wtPtrs]) (acq _)
  | wLast p hc ht =>
    refine wt _ _ ?_ h
    intro q hq
    simp only [wtPtrs, List.mem_singleton] at hq
    subst hq; exact Or.inl (List.mem_of_getLast? ht)
  | wNone later hc hn => exact wt _ _ (by simp [wtPtrs]) (rel _ _)
  | wBackEnd p later hc =>
    refine wt _ _ ?_ (rel _ _)
    have := (rel .waiter (lazy && later)).wt
    simp only [hc] at this
    exact this
  | wTime p hc => exact wt _ _ (by simp [wtPtrs]) (old_read hi h _ _ (h.wt p (by rw [hc]; simp [wtPtrs])))
  | fBegin hq hf => exact acq _
  | fRemove a hq hf ht =>
    obtain ⟨h1, _, h3, h4⟩ := hq
    refine ⟨sorted_remove a h.sorted, by simp only [h1]; trivial, ?_, ?_, fun f hf => late_remove a (h.flt f hf)⟩
    · simp [h4, wtPtrs]
    · simp [h3, rcPtrs]
  | fEnd later hq hf => exact rel _ _
  | prot p st ha hc => exact ⟨h.sorted, h.cl, h.wt, h.rc, h.flt⟩

theorem old_reach {lazy : Bool} {m : Nat} {s : St} (h : Reach true lazy m s) : Old s := by
  induction h with
  | init =>
    exact ⟨List.Pairwise.nil, trivial, by simp [St.init, wtPtrs], by simp [St.init, rcPtrs], by simp [St.init]⟩
  | step s s' hr st ih => exact old_step (inv_reach hr) ih st

/-- **C125** With the cleanup of the DAPHNE list, freed memory that is read belonged to a payload which was overtaken, by the
time of some payload stored, by at least the whole difference the cleanup allows: 10^7 ticks. -/
theorem C125_overtaken (lazy : Bool) (m : Nat) (s : St) (h : Reach true lazy m s) :
    ∀ f ∈ s.faults, ∃ b < s.mem.next, s.mem.ts f.2 + 10000000 ≤ s.mem.ts b := by
  intro f hf
  obtain ⟨_, b, hb, hd⟩ := (old_reach h).flt f hf
  exact ⟨b, hb, hd⟩

/-- **C125** The cleanup of the DAPHNE list always finds a first payload after a removal, and its differences of times do not
wrap. -/
theorem C125_cleanup_defined (lazy : Bool) (m : Nat) (s : St) (h : Reach true lazy m s) :
    (∀ t, s.cl = .again t → s.mem.list.head? ≠ none) ∧ (∀ a b, s.cl = .ends a b → s.mem.ts b ≤ s.mem.ts a) ∧
    (∀ t b, s.cl = .next t b → s.mem.ts b ≤ t) := by
  have hc := (old_reach h).cl
  refine ⟨?_, ?_, ?_⟩
  · intro t e hn
    rw [e] at hc
    obtain ⟨c, hm, _⟩ := hc
    rw [List.head?_eq_none_iff] at hn
    rw [hn] at hm; simp at hm
  · intro a b e; rw [e] at hc; exact hc
  · intro t b e; rw [e] at hc; exact hc.2

/-! ### When the memory is freed -/

/-- Nothing waits to be freed when nobody has an accessor. -/
def Tidy (x : Mem) : Prop := x.accs = [] → x.bin = []

theorem tidy_acquire (x : Mem) (w : Who) : Tidy (x.acquire w) := by intro h; simp [Mem.acquire] at h

theorem tidy_release (x : Mem) (w : Who) : Tidy (x.release w false) := by
  intro h
  unfold Mem.release at h ⊢
  by_cases e : x.accs.erase w = []
  · rw [if_pos ⟨e, rfl⟩]
  · rw [if_neg (by simp [e])] at h
    exact absurd h e

/-- The cleanup has an accessor. -/
def clAcc : Clean → Bool
  | .rest | .done | .more _ | .ptr _ _ | .want _ => false
  | _ => true

/-- Whoever removes has an accessor. -/
structure Held (s : St) : Prop where
  tidy : Tidy s.mem
  cl : clAcc s.cl = true → Who.cleaner ∈ s.mem.accs

theorem release_accs (x : Mem) (w : Who) (b : Bool) : (x.release w b).accs = x.accs.erase w := by
  unfold Mem.release
  split
  · rename_i h; exact h.1.symm
  · rfl

theorem insert_accs (x : Mem) (t : Nat) : (x.insert t).accs = x.accs := by unfold Mem.insert; split <;> rfl
theorem insert_bin (x : Mem) (t : Nat) : (x.insert t).bin = x.bin := by unfold Mem.insert; split <;> rfl
theorem remove_accs (x : Mem) (a : Nat) : (x.remove a).accs = x.accs := by unfold Mem.remove; split <;> rfl

theorem tidy_remove {x : Mem} {w : Who} (a : Nat) (h : w ∈ x.accs) : Tidy (x.remove a) := by
  intro e; rw [remove_accs] at e; rw [e] at h; simp at h

theorem read_mem (s : St) (w : Site) (a : Nat) : (s.read w a).mem = s.mem := by unfold St.read; split <;> rfl
theorem read_cl (s : St) (w : Site) (a : Nat) : (s.read w a).cl = s.cl := by unfold St.read; split <;> rfl
theorem reads_mem (s : St) (w : Site) (l : List Nat) : (s.reads w l).mem = s.mem := by
  unfold St.reads
  induction l generalizing s with
  | nil => rfl
  | cons a l ih => rw [List.foldl_cons, ih, read_mem]
theorem reads_cl (s : St) (w : Site) (l : List Nat) : (s.reads w l).cl = s.cl := by
  unfold St.reads
  induction l generalizing s with
  | nil => rfl
  | cons a l ih => rw [List.foldl_cons, ih, read_cl]

theorem held_step {oldest : Bool} {m : Nat} {s s' : St} (h : Held s) (st : Step oldest false m s s') : Held s' := by
  have acq : ∀ w (s' : St), s'.mem = s.mem.acquire w → s'.cl = s.cl → Held s' := by
    intro w s' e1 e2
    refine ⟨by rw [e1]; exact tidy_acquire _ _, fun hc => ?_⟩
    rw [e1]; rw [e2] at hc
    exact List.mem_append_left _ (h.cl hc)
  have rel : ∀ w (s' : St), w ≠ .cleaner → s'.mem = s.mem.release w false → s'.cl = s.cl → Held s' := by
    intro w s' hw e1 e2
    refine ⟨by rw [e1]; exact tidy_release _ _, fun hc => ?_⟩
    rw [e1, release_accs]; rw [e2] at hc
    exact (List.mem_erase_of_ne (Ne.symm hw)).2 (h.cl hc)
  have same : ∀ (s' : St), s'.mem = s.mem → s'.cl = s.cl → Held s' := by
    intro s' e1 e2
    exact ⟨by rw [e1]; exact h.tidy, fun hc => by rw [e1]; rw [e2] at hc; exact h.cl hc⟩
  have go : ∀ (s' : St), s'.mem = s.mem → clAcc s.cl = true → Held s' := by
    intro s' e1 hc
    exact ⟨by rw [e1]; exact h.tidy, fun _ => by rw [e1]; exact h.cl hc⟩
  have off : ∀ (s' : St), s'.mem = s.mem → clAcc s'.cl = false → Held s' := by
    intro s' e1 e2
    exact ⟨by rw [e1]; exact h.tidy, fun hc => by rw [e2] at hc; simp at hc⟩
  have clIn : ∀ (s' : St), s'.mem = s.mem.acquire .cleaner → Held s' := by
    intro s' e1
    exact ⟨by rw [e1]; exact tidy_acquire _ _, fun _ => by rw [e1]; simp [Mem.acquire]⟩
  have clOut : ∀ (s' : St), s'.mem = s.mem.release .cleaner false → clAcc s'.cl = false → Held s' := by
    intro s' e1 e2
    exact ⟨by rw [e1]; exact tidy_release _ _, fun hc => by rw [e2] at hc; simp at hc⟩
  have rem : ∀ (s' : St) (a : Nat), s'.mem = s.mem.remove a → clAcc s.cl = true → Held s' := by
    intro s' a e1 hc
    exact ⟨by rw [e1]; exact tidy_remove a (h.cl hc), fun _ => by rw [e1, remove_accs]; exact h.cl hc⟩
  have ac : ∀ {c}, s.cl = c → clAcc c = true → clAcc s.cl = true := fun e hc => by rw [e]; exact hc
  cases st with
  | sizeBegin k => exact acq _ _ rfl rfl
  | sizeEnd k later hk => exact rel (.size k) _ (by simp) rfl rfl
  | consAcc t hc => exact acq _ _ rfl rfl
  | consInsert t hc =>
    refine ⟨?_, fun hc => ?_⟩
    · intro e
      have e : (s.mem.insert t).accs = [] := e
      rw [insert_accs] at e
      show (s.mem.insert t).bin = []
      rw [insert_bin]; exact h.tidy e
    · show Who.cleaner ∈ (s.mem.insert t).accs
      rw [insert_accs]; exact h.cl hc
  | consEnd later hc => exact rel .consumer _ (by simp) rfl rfl
  | dBegin hk hp hc => exact clIn _ rfl
  | dEnds a b hc ht hh => exact go _ rfl (ac hc rfl)
  | dEmpty hc hn => exact go _ rfl (ac hc rfl)
  | dOver a b hc hd => exact go _ (by simp only [read_mem]) (ac hc rfl)
  | dUnder a b hc hd => exact go _ (by simp only [read_mem]) (ac hc rfl)
  | dRemove t b hc => exact rem _ b rfl (ac hc rfl)
  | dFirst t b hc hh => exact go _ rfl (ac hc rfl)
  | dOn t b hc hd => exact go _ (by simp only [read_mem]) (ac hc rfl)
  | dStop t b hc hd => exact go _ (by simp only [read_mem]) (ac hc rfl)
  | dEnd later hc => exact clOut _ rfl rfl
  | lBegin n hk hp hc => exact off _ rfl rfl
  | lSkip hk hp hc => exact off _ rfl rfl
  | lAcc n hc => exact clIn _ rfl
  | lFront n b hc hh => exact go _ rfl (ac hc rfl)
  | lPtr n b later hc => exact clOut _ rfl rfl
  | lOld n b hc => exact off _ (by simp only [read_mem]) rfl
  | lBreak n b hc => exact off _ (by simp only [read_mem]) rfl
  | lPop n hc => exact clIn _ rfl
  | lRemove n a hc ht => exact rem _ a rfl (ac hc rfl)
  | lAgain n later hc => exact clOut _ rfl rfl
  | lEnd b hc => exact off _ (by simp only [read_mem]) rfl
  | cleaned hp hc => exact off _ rfl rfl
  | qFront i hi' hp hc => exact acq _ _ rfl rfl
  | qFirst i p hc hh => exact same _ rfl rfl
  | qFrontEnd i p later hc => exact rel (.req i) _ (by simp) rfl rfl
  | qBack i p hc => exact acq _ _ rfl rfl
  | qLast i p q hc ht => exact same _ rfl rfl
  | qBackEnd i p q later hc => exact rel (.req i) _ (by simp) rfl rfl
  | qOldest i p q hc => exact same _ (by simp only [read_mem]) (by simp only [read_cl])
  | qNewest i q hc => exact same _ (by simp only [read_mem]) (by simp only [read_cl])
  | qLower i t hc => exact acq _ _ rfl rfl
  | qWalk i x ps take hc => exact same _ (by simp only [read_mem]) (by simp only [read_cl])
  | qIterEnd i x ps later hc => exact rel (.req i) _ (by simp) rfl rfl
  | qCopy i ps hc => exact same _ (by simp only [reads_mem]) (by simp only [reads_cl])
  | qNothing i hc hp hi' => exact same _ rfl rfl
  | qServed i hp hc => exact same _ rfl rfl
  | rBegin hc => exact same _ rfl rfl
  | rFront hc => exact acq _ _ rfl rfl
  | rFirst p hc hh => exact same _ rfl rfl
  | rNone later hc hn => exact rel .recorder _ (by simp) rfl rfl
  | rFrontEnd p later hc => exact rel .recorder _ (by simp) rfl rfl
  | rTime p hc => exact same _ (by simp only [read_mem]) (by simp only [read_cl])
  | rKnown hc => exact same _ rfl rfl
  | rLower t hc hp => exact acq _ _ rfl rfl
  | rServed x hc hp => exact same _ rfl rfl
  | rWalk x hc hp => exact same _ (by simp only [read_mem]) (by simp only [read_cl])
  | rIterEnd x later hc hp => exact rel .recorder _ (by simp) rfl rfl
  | rEnd hc => exact same _ rfl rfl
  | wBack hc => exact acq _ _ rfl rfl
  | wLast p hc ht => exact same _ rfl rfl
  | wNone later hc hn => exact rel .waiter _ (by simp) rfl rfl
  | wBackEnd p later hc => exact rel .waiter _ (by simp) rfl rfl
  | wTime p hc => exact same _ (by simp only [read_mem]) (by simp only [read_cl])
  | fBegin hq hf => exact acq _ _ rfl rfl
  | fRemove a hq hf ht =>
    refine ⟨tidy_remove a hf, fun hc => ?_⟩
    have hc : clAcc s.cl = true := hc
    rw [hq.1] at hc; simp [clAcc] at hc
  | fEnd later hq hf => exact rel .flush _ (by simp) rfl rfl
  | prot p st ha hc => exact same _ rfl rfl

/-- **C125** Unless freeing is put off, no memory of removed payloads is kept at moments when nobody uses the list. -/
theorem C125_freed (oldest : Bool) (m : Nat) (s : St) (h : Reach oldest false m s) (ha : s.mem.accs = []) :
    s.mem.bin = [] ∧ (s.mem.list ++ s.mem.freed).Perm (List.range s.mem.next) := by
  have hh : Held s := by
    clear ha
    induction h with
    | init => exact ⟨fun _ => rfl, by simp [St.init, clAcc]⟩
    | step s s' _ st ih => exact held_step ih st
  have hb := hh.tidy ha
  refine ⟨hb, ?_⟩
  have := (inv_reach h).acc
  unfold Account at this
  rw [hb, List.append_nil] at this
  exact this

/-! ### Executions -/

/-- The protocol while the cleanup runs and nobody else is about. -/
def inCleanup (m : Nat) : Protocol.St := ⟨List.replicate (m + 1) .idle, .cleaning, some .cleaner, true, 0⟩

theorem enter {oldest lazy : Bool} {m : Nat} {s : St} (h : Reach oldest lazy m s) (hp : s.prot = Protocol.St.init (m + 1)) :
    Reach oldest lazy m { s with prot := inCleanup m } := by
  obtain ⟨x, p, c, cl, rq, rc, wt, f⟩ := s
  simp only at hp
  subst hp
  have ini : ∀ i : Nat, (List.replicate (m + 1) Protocol.RPc.idle)[i]? = some .active → False := by
    intro i hi
    have := List.mem_of_getElem? hi
    simp at this
  have h1 := Reach.step _ _ h (.prot _ _ (Or.inr (.newCheck _ rfl)) (fun i hi => hi) (by simp [Protocol.St.init]))
  have h2 := Reach.step _ _ h1 (.prot _ _ (Or.inl (Or.inr (.lock _ rfl rfl))) (fun i hi => hi) (by simp))
  have h3 := Reach.step _ _ h2 (.prot _ _ (Or.inl (Or.inr (.request _ rfl rfl))) (fun i hi => hi) (by simp))
  exact Reach.step _ _ h3 (.prot _ _ (Or.inl (Or.inr (.go _ rfl rfl))) (fun i hi => hi) (by simp))

theorem leave {oldest lazy : Bool} {m : Nat} {s : St} (h : Reach oldest lazy m s) (hp : s.prot = inCleanup m)
    (hc : s.cl = .done) : Reach oldest lazy m { s with prot := Protocol.St.init (m + 1), cl := .rest } := by
  obtain ⟨x, p, c, cl, rq, rc, wt, f⟩ := s
  simp only at hp hc
  subst hp hc
  have h1 := Reach.step _ _ h (.cleaned _ rfl rfl)
  have h2 := Reach.step _ _ h1 (.prot _ _ (Or.inl (Or.inr (.clear _ rfl))) (fun i hi => hi) (by simp))
  have h3 := Reach.step _ _ h2 (.prot _ _ (Or.inl (Or.inr (.notify _ rfl)))
    (fun i hi => by
      have := List.mem_of_getElem? (show (List.replicate (m + 1) Protocol.RPc.idle)[i]? = some .active from hi)
      simp at this) (by simp))
  have h4 := Reach.step _ _ h3 (.prot _ _ (Or.inl (Or.inr (.unlock _ rfl))) (fun i hi => hi) (by simp))
  simpa [inCleanup, Protocol.St.init, Protocol.wakeR] using h4

theorem store {oldest lazy : Bool} {m : Nat} {s : St} (h : Reach oldest lazy m s) (hc : s.cons = .idle) (t : Nat) :
    Reach oldest lazy m { s with mem := ((s.mem.acquire .consumer).insert t).release .consumer false } := by
  obtain ⟨x, p, c, cl, rq, rc, wt, f⟩ := s
  simp only at hc
  subst hc
  have h1 := Reach.step _ _ h (.consAcc _ t rfl)
  have h2 := Reach.step _ _ h1 (.consInsert _ t rfl)
  have h3 := Reach.step _ _ h2 (.consEnd _ false rfl)
  simpa using h3

theorem release_last {x : Mem} {l : List Who} (w : Who) (e : x.accs = l ++ [w]) (hw : w ∉ l) (hb : l ≠ [] ∨ x.bin = []) :
    x.release w false = { x with accs := l } := by
  have e' : x.accs.erase w = l := by rw [e, List.erase_append_right _ hw]; simp
  unfold Mem.release
  rw [e']
  split
  · rename_i h
    obtain ⟨h, _⟩ := h
    subst h
    rcases hb with hb | hb
    · exact absurd rfl hb
    · obtain ⟨ts, list, succ, bin, freed, next, accs⟩ := x
      simp only at hb
      subst hb
      simp
  · rfl

/-- The newest payload, ten million and one ticks after the only one stored, arrives, and the cleanup removes the latter. -/
theorem round {lazy : Bool} {m : Nat} {ts : Nat → Nat} {a n : Nat} {succ : Nat → Option Nat} {bin freed : List Nat}
    {ac : List Who} {rq : Nat → Req} {rc : Rec} {wt : Wait} {f : List (Site × Nat)}
    (h : Reach true lazy m ⟨⟨ts, [a], succ, bin, freed, n, ac⟩, Protocol.St.init (m + 1), .idle, .rest, rq, rc, wt, f⟩)
    (hne : a ≠ n) (ha : a ∉ freed) (hn : n ∉ freed) (hc : Who.consumer ∉ ac) (hb : ac ≠ [] ∨ bin = []) :
    Reach true lazy m ⟨⟨upd ts n (ts a + 10000001), [n], upd succ a (some n), bin ++ [a], freed, n + 1, ac ++ [.cleaner]⟩,
      inCleanup m, .idle, .fin, rq, rc, wt, f⟩ := by
  have h1 := store h rfl (ts a + 10000001)
  have e1 : (((Mem.mk ts [a] succ bin freed n ac).acquire .consumer).insert (ts a + 10000001)).release .consumer false =
      ⟨upd ts n (ts a + 10000001), [a, n], succ, bin, freed, n + 1, ac⟩ := by
    rw [release_last (l := ac) .consumer (by rw [insert_accs]; rfl) hc (by rw [insert_bin]; exact hb)]
    unfold Mem.insert
    rw [if_neg (by simp [Mem.acquire])]
    simp [Mem.acquire, place, upd, hne]
  rw [e1] at h1
  generalize hts : upd ts n (ts a + 10000001) = ts' at h1 ⊢
  have t1 : ts' a = ts a := by rw [← hts]; simp [upd, hne]
  have t2 : ts' n = ts a + 10000001 := by rw [← hts]; simp [upd]
  have h2 := enter h1 rfl
  have h3 := Reach.step _ _ h2 (.dBegin _ rfl rfl rfl)
  have h4 := Reach.step _ _ h3 (.dEnds _ n a rfl (by simp [Mem.acquire]) (by simp [Mem.acquire]))
  have h5 := Reach.step _ _ h4 (.dOver _ n a rfl (by simp only [Mem.acquire, t1, t2, maxDiff]; omega))
  simp only [St.read, Mem.acquire, hn, ha, if_false] at h5
  have h6 := Reach.step _ _ h5 (.dRemove _ _ a rfl)
  rw [St.read, if_neg (by exact ha)] at h6
  have e6 : ∀ x : Mem, x.list = [a, n] → x.remove a = { x with list := [n], bin := x.bin ++ [a], succ := upd x.succ a (some n) } := by
    intro x hx
    unfold Mem.remove
    rw [hx, if_pos (by simp)]
    simp [after]
  rw [e6 _ rfl] at h6
  have h7 := Reach.step _ _ h6 (.dFirst _ _ n rfl rfl)
  have h8 := Reach.step _ _ h7 (.dStop _ _ n rfl (by simp only [Mem.acquire, t2, maxDiff]; omega))
  rw [St.read, if_neg (by exact hn)] at h8
  exact h8

/-- One payload is stored. -/
theorem one (oldest lazy : Bool) (m : Nat) : Reach oldest lazy m ⟨⟨upd (fun _ => 0) 0 0, [0], fun _ => none, [], [], 1, []⟩,
    Protocol.St.init (m + 1), .idle, .rest, fun _ => .rest, .rest, .rest, []⟩ :=
  store (s := St.init m) Reach.init rfl 0

/-- ... and the end of the cleanup when nobody has an accessor. -/
theorem round_free {lazy : Bool} {m : Nat} {rc : Rec} {wt : Wait}
    (h : Reach true lazy m ⟨⟨upd (fun _ => 0) 0 0, [0], fun _ => none, [], [], 1, []⟩, Protocol.St.init (m + 1), .idle, .rest,
      fun _ => .rest, rc, wt, []⟩) :
    ∃ x : Mem, x.freed = [0] ∧ x.list = [1] ∧ x.next = 2 ∧ x.ts 0 = 0 ∧ x.ts 1 = 10000001 ∧
      Reach true lazy m ⟨x, inCleanup m, .idle, .done, fun _ => .rest, rc, wt, []⟩ := by
  have h1 := round h (by decide) (by simp) (by simp) (by simp) (Or.inr rfl)
  have h2 := Reach.step _ _ h1 (.dEnd _ false rfl)
  rw [Bool.and_false] at h2
  exact ⟨_, rfl, rfl, rfl, rfl, rfl, h2⟩

/-- **C125** (counterexample) A recording that has just begun reads freed memory: it takes the pointer to the first payload, a
cleanup removes and frees the payload, and the recording reads its time. -/
theorem C125_recording_counterexample (lazy : Bool) (m : Nat) :
    ∃ s, Reach true lazy m s ∧ s.faults = [(.recFront, 0)] ∧ s.mem.list = [1] ∧ s.mem.ts 0 = 0 ∧ s.mem.ts 1 = 10000001 := by
  have h1 := Reach.step _ _ (one true lazy m) (.rBegin _ rfl)
  have h2 := Reach.step _ _ h1 (.rFront _ rfl)
  have h3 := Reach.step _ _ h2 (.rFirst _ 0 rfl rfl)
  have h4 := Reach.step _ _ h3 (.rFrontEnd _ 0 false rfl)
  rw [Bool.and_false] at h4
  obtain ⟨x, e1, e2, e3, e4, e5, h5⟩ := round_free h4
  have h6 := Reach.step _ _ h5 (.rTime _ 0 rfl)
  rw [St.read, if_pos (by simp [e1])] at h6
  exact ⟨_, h6, rfl, e2, e4, e5⟩

/-- **C125** (counterexample) The waiting requests read freed memory: they take the pointer to the newest payload, data 10^7 ticks
later arrives and a cleanup frees the payload, and its time is read. -/
theorem C125_waiting_counterexample (lazy : Bool) (m : Nat) :
    ∃ s, Reach true lazy m s ∧ s.faults = [(.waiter, 0)] ∧ s.mem.list = [1] ∧ s.mem.ts 0 = 0 ∧ s.mem.ts 1 = 10000001 := by
  have h1 := Reach.step _ _ (one true lazy m) (.wBack _ rfl)
  have h2 := Reach.step _ _ h1 (.wLast _ 0 rfl rfl)
  have h3 := Reach.step _ _ h2 (.wBackEnd _ 0 false rfl)
  rw [Bool.and_false] at h3
  obtain ⟨x, e1, e2, e3, e4, e5, h5⟩ := round_free h3
  have h6 := Reach.step _ _ h5 (.wTime _ 0 rfl)
  rw [St.read, if_pos (by simp [e1])] at h6
  exact ⟨_, h6, rfl, e2, e4, e5⟩

/-- **C125** (counterexample) With the default cleanup, which takes away the newest payloads of a list (C64), the waiting requests
read freed memory without any delay: the payload they are looking at is the one taken away. -/
theorem C125_newest_counterexample (lazy : Bool) (m : Nat) :
    ∃ s, Reach false lazy m s ∧ s.faults = [(.waiter, 1)] ∧ s.mem.list = [0] ∧ s.mem.next = 2 ∧ s.mem.ts 0 = 0 ∧
      s.mem.ts 1 = 25 := by
  generalize hts : upd (upd (fun _ => 0) 0 0) 1 25 = ts
  have h0 : Reach false lazy m ⟨⟨ts, [0, 1], fun _ => none, [], [], 2, []⟩, Protocol.St.init (m + 1), .idle, .rest,
      fun _ => .rest, .rest, .rest, []⟩ := by subst hts; exact store (one false lazy m) rfl 25
  have h1 := Reach.step _ _ h0 (.wBack _ rfl)
  have h2 := Reach.step _ _ h1 (.wLast _ 1 rfl rfl)
  have h3 := Reach.step _ _ h2 (.wBackEnd _ 1 false rfl)
  rw [Bool.and_false] at h3
  have h4 : Reach false lazy m ⟨⟨ts, [0, 1], fun _ => none, [], [], 2, []⟩, inCleanup m, .idle, .rest,
      fun _ => .rest, .rest, .ptr 1, []⟩ := enter h3 rfl
  have h5 := Reach.step _ _ h4 (.lBegin _ 1 rfl rfl rfl)
  have h6 := Reach.step _ _ h5 (.lAcc _ 1 rfl)
  have h7 := Reach.step _ _ h6 (.lFront _ 1 0 rfl rfl)
  have h8 := Reach.step _ _ h7 (.lPtr _ 1 0 false rfl)
  rw [Bool.and_false] at h8
  have h8 : Reach false lazy m ⟨⟨ts, [0, 1], fun _ => none, [], [], 2, []⟩, inCleanup m, .idle, .ptr 0 1,
      fun _ => .rest, .rest, .ptr 1, []⟩ := h8
  have h9 := Reach.step _ _ h8 (.lOld _ 0 0 rfl)
  simp only [St.read, List.not_mem_nil, if_false] at h9
  have h10 := Reach.step _ _ h9 (.lPop _ 0 rfl)
  have h11 := Reach.step _ _ h10 (.lRemove _ 0 1 rfl rfl)
  have h12 := Reach.step _ _ h11 (.lAgain _ 0 false rfl)
  rw [Bool.and_false] at h12
  have h12 : Reach false lazy m ⟨⟨ts, [0], upd (fun _ => none) 1 none, [], [1], 2, []⟩, inCleanup m, .idle, .more 0,
      fun _ => .rest, .rest, .ptr 1, []⟩ := h12
  have h13 := Reach.step _ _ h12 (.wTime _ 1 rfl)
  simp only [St.read, List.mem_singleton, if_true] at h13
  exact ⟨_, h13, rfl, rfl, rfl, by rw [← hts]; rfl, by rw [← hts]; rfl⟩

/-- **C125** (counterexample) The memory of removed payloads grows without bound although each use of the list is short: if each
use begins before the one before it ends, nothing is ever freed. Here one payload is stored, `N` others were removed. -/
theorem C125_growth_counterexample (m N : Nat) :
    ∃ s, Reach true false m s ∧ s.mem.list.length = 1 ∧ s.mem.bin.length = N ∧ s.mem.freed = [] ∧
      s.mem.accs = [.size N] ∧ s.cl = .rest ∧ s.prot = Protocol.St.init (m + 1) := by
  have : ∃ ts succ bin, Reach true false m ⟨⟨ts, [N], succ, bin, [], N + 1, [.size N]⟩, Protocol.St.init (m + 1), .idle, .rest,
      fun _ => .rest, .rest, .rest, []⟩ ∧ bin.length = N := by
    induction N with
    | zero => exact ⟨_, _, [], Reach.step _ _ (one true false m) (.sizeBegin _ 0), rfl⟩
    | succ N ih =>
      obtain ⟨ts, succ, bin, h, hl⟩ := ih
      have h1 := Reach.step _ _ h (.sizeBegin _ (N + 1))
      have h2 := Reach.step _ _ h1 (.sizeEnd _ N false (by simp [Mem.acquire]))
      have e2 : ((Mem.mk ts [N] succ bin [] (N + 1) [.size N]).acquire (.size (N + 1))).release (.size N) false =
          ⟨ts, [N], succ, bin, [], N + 1, [.size (N + 1)]⟩ := by
        simp [Mem.acquire, Mem.release]
      rw [Bool.and_false, e2] at h2
      have h3 := round h2 (by omega) (by simp) (by simp) (by simp) (Or.inl (by simp))
      have h4 := Reach.step _ _ h3 (.dEnd _ false rfl)
      rw [Bool.and_false] at h4
      have e4 : ∀ x : Mem, x.accs = [.size (N + 1), .cleaner] → x.release .cleaner false = { x with accs := [.size (N + 1)] } := by
        intro x hx
        unfold Mem.release
        rw [hx]
        simp
      rw [e4 _ rfl] at h4
      exact ⟨_, _, bin ++ [N], leave h4 rfl rfl, by simp [hl]⟩
  obtain ⟨ts, succ, bin, h, hl⟩ := this
  exact ⟨_, h, rfl, hl, rfl, rfl, rfl, rfl⟩

/-- Case for C125: the recording is at a payload when a cleanup removes it; it reads it without harm and goes on to the next. -/
example : ∃ s, Reach true false 0 s ∧ s.mem.list = [1] ∧ s.mem.bin = [0] ∧ s.rc = .iter (some 0) ∧ s.faults = [] ∧
    ∃ s', Step true false 0 s s' ∧ s'.rc = .iter (some 1) ∧ s'.faults = [] := by
  have h1 := Reach.step _ _ (one true false 0) (.rBegin _ rfl)
  have h2 := Reach.step _ _ h1 (.rKnown _ rfl)
  have act : ∀ (l : List Protocol.RPc) (i : Nat), l.length = 1 → l[0]? ≠ some .active → l[i]? = some .active → False := by
    intro l i hl h0 hi
    have : i < l.length := Protocol.getElem?_lt' hi
    have : i = 0 := by omega
    subst this; exact h0 hi
  have h3 := Reach.step _ _ h2 (.prot _ _ (Or.inr (.newRequest _ 0 rfl)) (fun i hi => (act _ i rfl (by decide) hi).elim)
    (by simp [Protocol.St.init]))
  have h4 := Reach.step _ _ h3 (.prot _ _ (Or.inl (Or.inl (.lock _ 0 rfl rfl))) (fun i hi => (act _ i rfl (by decide) hi).elim)
    (by simp [Protocol.St.init]))
  have h5 := Reach.step _ _ h4 (.prot _ _ (Or.inl (Or.inl (.enter _ 0 rfl rfl))) (fun i hi => (act _ i rfl (by decide) hi).elim)
    (by simp [Protocol.St.init]))
  have h6 := Reach.step _ _ h5 (.prot _ _ (Or.inl (Or.inl (.notifyIn _ 0 rfl)))
    (fun i hi => (act _ i rfl (by decide) hi).elim) (by simp [Protocol.St.init]))
  have h7 := Reach.step _ _ h6 (.rLower _ 0 rfl rfl)
  have h8 := Reach.step _ _ h7 (.rServed _ (some 0) rfl rfl)
  have h9 := Reach.step _ _ h8 (.prot _ _ (Or.inl (Or.inl (.lockOut _ 0 rfl rfl)))
    (fun i hi => (act _ i rfl (by decide) hi).elim) (by simp [Protocol.St.init, Protocol.wakeC]))
  have h10 := Reach.step _ _ h9 (.prot _ _ (Or.inl (Or.inl (.leave _ 0 rfl)))
    (fun i hi => (act _ i rfl (by decide) hi).elim) (by simp [Protocol.St.init, Protocol.wakeC]))
  have h11 := Reach.step _ _ h10 (.prot _ _ (Or.inl (Or.inl (.notifyOut _ 0 rfl)))
    (fun i hi => (act _ i rfl (by decide) hi).elim) (by simp [Protocol.St.init, Protocol.wakeC]))
  have h12 : Reach true false 0 ⟨⟨upd (fun _ => 0) 0 0, [0], fun _ => none, [], [], 1, [.recorder]⟩, Protocol.St.init 1, .idle,
      .rest, fun _ => .rest, .iter (some 0), .rest, []⟩ := h11
  have h13 := round h12 (by decide) (by simp) (by simp) (by simp) (Or.inr rfl)
  have h14 := Reach.step _ _ h13 (.dEnd _ false rfl)
  refine ⟨_, h14, rfl, rfl, rfl, rfl, _, .rWalk _ 0 rfl rfl, rfl, rfl⟩

end Verif.ListMem
