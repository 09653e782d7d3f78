import Verif.AllocModel
/- Property C05: storage of the ring buffer across configurations. -/
namespace Verif.Alloc

/-- The buffer owns a live block of its size, and releasing it now is legal and really
releases it. -/
def Usable (lib : Bool) (b : Buf) : Prop :=
  (∃ k, b.ptr = .live k b.size) ∧ freeMemory lib b = .ok { b with ptr := .freed }

/-- Option combinations that lead to usable storage. -/
def SafeOpts (lib : Bool) (o : Opts) : Prop :=
  (o.intrinsic = true ∧ 0 < o.align) ∨
  (o.intrinsic = false ∧ 0 < o.align ∧ o.numaAware = false) ∨
  (o.intrinsic = false ∧ o.align = 0 ∧ o.numaAware = true ∧ o.numaNode < 8 ∧ lib = true) ∨
  (o.intrinsic = false ∧ o.align = 0 ∧ o.numaAware = false)

/-- **C05 (exact condition)** Configuring a usable buffer, with memory available, returns with
usable storage of the configured size iff the option combination is one of the safe ones. -/
theorem C05_conf_usable_iff (lib : Bool) (b : Buf) (hb : Usable lib b) (n : Nat) (o : Opts) :
    (∃ b', conf lib false b n o = .returned b' ∧ b'.size = n ∧ Usable lib b') ↔ SafeOpts lib o := by
  obtain ⟨-, hf⟩ := hb
  obtain ⟨na, node, intr, al⟩ := o
  simp only [conf, hf, allocateMemory, SafeOpts]
  have hal : al = 0 ∨ 0 < al := Nat.eq_zero_or_pos al
  have hnode : node < 8 ∨ ¬ node < 8 := Nat.lt_or_ge node 8 |>.imp id (by omega)
  rcases hal with rfl | hal <;> rcases hnode with hnode | hnode <;>
    cases na <;> cases intr <;> cases lib <;>
    simp [Usable, freeMemory, release, *] <;> omega

/-- Non-vacuity: the default-constructed buffer is usable. -/
example : Usable false Buf.default := ⟨⟨.malloc, rfl⟩, rfl⟩

/-- **C05 (partial)** Along every sequence of configurations with safe options the buffer always
owns live storage of the configured size released by the matching routine.
Missing: the unsafe combinations, which the code accepts (see the counterexamples). -/
theorem C05_conf_sequence_partial (lib : Bool) (b : Buf) (hb : Usable lib b)
    (cs : List (Nat × Opts)) (hs : ∀ c ∈ cs, SafeOpts lib c.2) :
    ∃ b', confs lib b cs = .returned b' ∧ Usable lib b' ∧
      (∀ c, cs.getLast? = some c → b'.size = c.1) := by
  induction cs generalizing b with
  | nil => exact ⟨b, rfl, hb, by simp⟩
  | cons c cs ih =>
    obtain ⟨n, o⟩ := c
    obtain ⟨b1, e1, s1, u1⟩ := (C05_conf_usable_iff lib b hb n o).2 (hs (n, o) (by simp))
    obtain ⟨b2, e2, u2, l2⟩ := ih b1 u1 (fun c hc => hs c (by simp [hc]))
    refine ⟨b2, by simp [confs, e1, e2], u2, ?_⟩
    intro c hc
    cases cs with
    | nil => simp [confs] at e2 hc; subst hc; rw [← e2, s1]
    | cons d ds => exact l2 c (by simpa using hc)

/-- Non-vacuity: reconfiguring through all four allocators. -/
example : ∀ c ∈ [(100, (⟨false, 0, false, 0⟩ : Opts)), (200, ⟨false, 0, true, 4096⟩),
    (300, ⟨false, 0, false, 4096⟩), (50, ⟨true, 1, false, 0⟩)], SafeOpts true c.2 := by
  simp [SafeOpts]

/-- **C05 (out of memory)** When the selected allocator fails, `conf` with safe options reports it by
throwing; it never returns with missing storage. -/
theorem C05_out_of_memory (lib : Bool) (b : Buf) (hb : Usable lib b) (n : Nat) (o : Opts)
    (ho : SafeOpts lib o) :
    ∃ b', conf lib true b n o = .threw .badAlloc b' ∧ b'.ptr = .null := by
  obtain ⟨-, hf⟩ := hb
  obtain ⟨na, node, intr, al⟩ := o
  simp only [SafeOpts] at ho
  simp only [conf, hf, allocateMemory]
  have hal : al = 0 ∨ 0 < al := Nat.eq_zero_or_pos al
  rcases hal with rfl | hal <;> cases na <;> cases intr <;> cases lib <;> simp_all

/-- Non-vacuity: the default buffer reconfigured to plain `malloc`. -/
example : Usable false Buf.default ∧ SafeOpts false ⟨false, 0, false, 0⟩ :=
  ⟨⟨⟨.malloc, rfl⟩, rfl⟩, by simp [SafeOpts]⟩

/-- **C05 is false of the code (1)**: NUMA-aware with a node outside 0..7 is accepted by `conf`
(it returns without throwing), but the buffer keeps pointing to the block just released. -/
theorem C05_numa_node_dangling_counterexample (lib : Bool) :
    conf lib false Buf.default 1000 ⟨true, 8, false, 0⟩ =
      .returned ⟨.freed, 1000, ⟨true, 8, false, 0⟩⟩ := by
  cases lib <;> rfl

/-- **C05 is false of the code (2)**: the intrinsic allocator without alignment is accepted and
leaves a dangling pointer. -/
theorem C05_intrinsic_unaligned_dangling_counterexample (lib : Bool) :
    conf lib false Buf.default 1000 ⟨false, 0, true, 0⟩ =
      .returned ⟨.freed, 1000, ⟨false, 0, true, 0⟩⟩ := by
  cases lib <;> rfl

/-- **C05 is false of the code (3)**: NUMA-aware plus alignment is accepted; the block comes from
`aligned_alloc` but is later given to `numa_free`. -/
theorem C05_numa_aligned_badfree_counterexample :
    ∃ b, conf true false Buf.default 1000 ⟨true, 0, false, 4096⟩ = .returned b ∧
      freeMemory true b = .ub .badFree := ⟨_, rfl, rfl⟩

/-- **C05 is false of the code (4)**: when `conf` throws because NUMA support is not built in, the
old block has already been released, so the destructor (or the next `conf`) frees it again. -/
theorem C05_throw_then_double_free_counterexample :
    ∃ b, conf false false Buf.default 1000 ⟨true, 0, false, 0⟩ = .threw .configError b ∧
      freeMemory false b = .ub .danglingBlock := ⟨_, rfl, rfl⟩

end Verif.Alloc
