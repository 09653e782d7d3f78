import Verif.DestroyModel
/- Property C77: destroying a module. -/
namespace Verif.Destroy

mutual
/-- The classes of all objects in the tree, owner after owned, last declared first. -/
def all : Obj → List Cls
  | .mk c os => allOwned os ++ [c]
def allOwned : Owned → List Cls
  | .nil => []
  | .cons _ o rest => allOwned rest ++ all o
end

mutual
/-- Every owning pointer has the exact type of its object or a type with virtual destructor. -/
def Sound (virt : Cls → Bool) : Obj → Prop
  | .mk _ os => SoundOwned virt os
def SoundOwned (virt : Cls → Bool) : Owned → Prop
  | .nil => True
  | .cons s o rest => (s = o.cls ∨ virt s = true) ∧ Sound virt o ∧ SoundOwned virt rest
end

mutual
theorem destroy_sound (virt : Cls → Bool) : (o : Obj) → Sound virt o → destroy virt o = .ok (all o)
  | .mk c os, h => by
    simp only [Sound] at h
    simp only [destroy, destroyOwned_sound virt os h, Outcome.bind_ok, all]
theorem destroyOwned_sound (virt : Cls → Bool) :
    (os : Owned) → SoundOwned virt os → destroyOwned virt os = .ok (allOwned os)
  | .nil, _ => rfl
  | .cons s o rest, h => by
    simp only [SoundOwned] at h
    simp only [destroyOwned, destroyOwned_sound virt rest h.2.2, Outcome.bind_ok, if_pos h.1,
      destroy_sound virt o h.2.1, allOwned]
end

mutual
theorem destroy_unsound (virt : Cls → Bool) :
    (o : Obj) → ¬ Sound virt o → destroy virt o = .ub .badFree
  | .mk c os, h => by
    simp only [Sound] at h
    simp only [destroy, destroyOwned_unsound virt os h, Outcome.bind_ub]
theorem destroyOwned_unsound (virt : Cls → Bool) :
    (os : Owned) → ¬ SoundOwned virt os → destroyOwned virt os = .ub .badFree
  | .nil, h => absurd trivial (by simpa [SoundOwned] using h)
  | .cons s o rest, h => by
    by_cases hr : SoundOwned virt rest
    · simp only [destroyOwned, destroyOwned_sound virt rest hr, Outcome.bind_ok]
      by_cases h1 : s = o.cls ∨ virt s = true
      · rw [if_pos h1]
        have : ¬ Sound virt o := fun hs => h (by simp only [SoundOwned]; exact ⟨h1, hs, hr⟩)
        rw [destroy_unsound virt o this]; rfl
      · rw [if_neg h1]
    · simp only [destroyOwned, destroyOwned_unsound virt rest hr, Outcome.bind_ub]
end

/-- **C77 (partial)** For any ownership tree and any choice of virtual destructors: destruction runs the
destructor of every object in the tree if every owning pointer has the exact type or a virtual
destructor, and is undefined behaviour otherwise. Missing: the modules of the code, which are of the
second kind. -/
theorem C77_destroy_iff_partial (virt : Cls → Bool) (o : Obj) :
    (Sound virt o → destroy virt o = .ok (all o)) ∧ (¬ Sound virt o → destroy virt o = .ub .badFree) :=
  ⟨destroy_sound virt o, destroy_unsound virt o⟩

theorem members_sound (virt : Cls → Bool) (l : List Obj) (h : ∀ o ∈ l, Sound virt o) :
    SoundOwned virt (members l) := by
  induction l with
  | nil => trivial
  | cons o l ih => exact ⟨.inl rfl, h o (by simp), ih fun x hx => h x (by simp [hx])⟩

theorem leaf_sound (virt : Cls → Bool) (c : Cls) : Sound virt (leaf c) := trivial

theorem readoutModel_sound (virt : Cls → Bool) (n : Nat) : Sound virt (readoutModel n) := by
  apply members_sound
  intro o ho
  simp only [List.mem_cons, List.not_mem_nil, or_false] at ho
  rcases ho with rfl | rfl | rfl | rfl | rfl | rfl | rfl
  · trivial
  · trivial
  · apply members_sound; intro o ho; rw [List.eq_of_mem_replicate ho]; trivial
  · apply members_sound; intro o ho
    simp only [List.mem_cons, List.not_mem_nil, or_false] at ho
    rcases ho with rfl | rfl | rfl | rfl <;> trivial
  all_goals trivial

example : Sound codeVirtual dummyConsumer ∧ ¬ Sound codeVirtual dataRecorder := by
  refine ⟨members_sound _ _ (by simp [leaf_sound]), ?_⟩
  intro h; have := h.1; revert this; decide

/-- **C77 is false of the code**: destroying a data link handler, a recorder or an emulator card with a
link is undefined behaviour. -/
theorem C77_modules_counterexample (n : Nat) (links : List Obj) (l : Obj)
    (hl : l.cls = .sourceEmulatorModel ∨ l.cls = .tpEmulatorModel) (hm : l ∈ links) :
    destroy codeVirtual (dataLinkHandler n) = .ub .badFree ∧
    destroy codeVirtual dataRecorder = .ub .badFree ∧
    destroy codeVirtual (fakeCardReader links) = .ub .badFree := by
  refine ⟨destroy_unsound _ _ ?_, destroy_unsound _ _ ?_, destroy_unsound _ _ ?_⟩
  · intro h; have := h.1; revert this; simp [codeVirtual, readoutModel, Obj.cls]
  · intro h; have := h.1; revert this; simp [codeVirtual, recorderImpl, Obj.cls]
  · intro h
    have h : SoundOwned codeVirtual (linkMap links) := h
    induction links with
    | nil => cases hm
    | cons o os ih =>
      rcases List.mem_cons.1 hm with rfl | hm
      · have := h.1
        rcases hl with hl | hl <;> rw [hl] at this <;> simp [codeVirtual] at this
      · exact ih hm h.2.2 h.2.2

example : sourceEmulator.cls = .sourceEmulatorModel ∧ sourceEmulator ∈ [sourceEmulator] :=
  ⟨rfl, by simp⟩

/-- With virtual destructors in the three concept classes. -/
def fixed (c : Cls) : Bool :=
  decide (c = .readoutConcept ∨ c = .sourceEmulatorConcept ∨ c = .recorderConcept)

/-- Virtual destructors in the three concept classes suffice: all modules are then destroyed completely,
for any number of threads and of links. -/
theorem C77_virtual_suffices (n : Nat) (links : List Obj) (h : ∀ l ∈ links, Sound fixed l) :
    destroy fixed (dataLinkHandler n) = .ok (all (dataLinkHandler n)) ∧
    destroy fixed dataRecorder = .ok (all dataRecorder) ∧
    destroy fixed (fakeCardReader links) = .ok (all (fakeCardReader links)) := by
  refine ⟨destroy_sound _ _ ⟨.inr rfl, readoutModel_sound _ _, trivial⟩,
    destroy_sound _ _ ⟨.inr rfl, ?_, trivial⟩, destroy_sound _ _ ?_⟩
  · apply members_sound; intro o ho
    simp only [List.mem_cons, List.not_mem_nil, or_false] at ho
    rcases ho with rfl | rfl <;> trivial
  · show SoundOwned fixed (linkMap links)
    induction links with
    | nil => trivial
    | cons o os ih => exact ⟨.inr rfl, h o (by simp), ih fun x hx => h x (by simp [hx])⟩

example : Sound fixed sourceEmulator := members_sound _ _ (by simp [leaf_sound])

/-- The threads of a data link handler: three of its own, two of the request handler and the
post-processing ones. -/
theorem C77_thread_count (n : Nat) :
    (all (dataLinkHandler n)).count .reusableThread = n + 5 := by
  have hrep : ∀ n, allOwned (members (List.replicate n (leaf .reusableThread))) =
      List.replicate n .reusableThread := by
    intro n
    induction n with
    | zero => rfl
    | succ n ih =>
      rw [List.replicate_succ, members, allOwned, ih]
      show List.replicate n Cls.reusableThread ++ ([] ++ [Cls.reusableThread]) = _
      rw [List.nil_append, ← List.replicate_succ']
  simp only [dataLinkHandler, readoutModel, processor, requestHandler, all, allOwned, members, hrep,
    List.count_append, List.count_replicate_self]
  simp [leaf, all, allOwned, List.count_cons]
  omega

/-- The recorder owns one thread and the writer of its file, an emulated link one thread and the contents of its file. -/
theorem C77_owned : (all dataRecorder).count .reusableThread = 1 ∧ (all dataRecorder).count .bufferedWriter = 1 ∧
    (all sourceEmulator).count .reusableThread = 1 ∧ (all sourceEmulator).count .fileSource = 1 := by decide

end Verif.Destroy
