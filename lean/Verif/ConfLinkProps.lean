import Verif.ConfLinkModel
import Verif.AllocProps
/- Property C114: a link that was configured can take data. -/
namespace Verif.ConfLink
open Alloc (SafeOpts)

/-- Specification: a null pointer may be given to the release routine that the options select.
(`free` and `_mm_free` accept null.) -/
def NullOk (o : Alloc.Opts) : Prop := o.intrinsic = true ∨ o.numaAware = false

/-- Specification: an acceptable `conf` command: a combination of options that selects an allocator, at
least two slots, and, where the allocator fails, one whose release routine accepts null. -/
def Sane (lib : Bool) (c : Cmd) : Prop := SafeOpts lib c.opts ∧ 2 ≤ c.size ∧ (c.fails = true → NullOk c.opts)

/-- Specification: the link has an empty ring of `n` slots in memory that it owns. -/
def Ready (lib : Bool) (n : Nat) (l : Link) : Prop :=
  Alloc.Usable lib l.buf ∧ l.buf.size = n ∧ occupancy l = 0 ∧ l.r < n ∧ l.w < n

/-- The storage can be released, whether it is there or not. -/
def Releasable (lib : Bool) (b : Alloc.Buf) : Prop :=
  ∃ p, Alloc.freeMemory lib b = .ok { b with ptr := p }

theorem usable_releasable {lib : Bool} {b : Alloc.Buf} (h : Alloc.Usable lib b) : Releasable lib b :=
  ⟨.freed, h.2⟩

/-- One acceptable command on a link whose storage can be released. -/
theorem conf_one (lib : Bool) (l : Link) (h : Releasable lib l.buf) (c : Cmd) (hc : Sane lib c) :
    ∃ l', conf lib l c = .returned l' ∧ Releasable lib l'.buf ∧ l'.lost = l.lost ∧
      l'.reports = l.reports + (if c.fails then 1 else 0) ∧
      (c.fails = false → Ready lib c.size l') ∧ (c.fails = true → l'.buf.ptr = .null ∧ l'.buf.size = c.size ∧ l'.r = 0 ∧ l'.w = 0) := by
  obtain ⟨p, hp⟩ := h
  obtain ⟨n, ⟨na, node, intr, al⟩, pre, f⟩ := c
  obtain ⟨hs, h2, hn⟩ := hc
  simp only at h2
  have hbase : ∀ (q : Alloc.Ptr), Alloc.allocateMemory lib f { l.buf with ptr := p } n ⟨na, node, intr, al⟩ =
      .ok ⟨q, n, ⟨na, node, intr, al⟩⟩ → (q = .null ↔ f = true) →
      (f = false → Alloc.Usable lib ⟨q, n, ⟨na, node, intr, al⟩⟩) →
      (f = true → Releasable lib ⟨q, n, ⟨na, node, intr, al⟩⟩) →
      ∃ l', conf lib l ⟨n, ⟨na, node, intr, al⟩, pre, f⟩ = .returned l' ∧ Releasable lib l'.buf ∧
        l'.lost = l.lost ∧ l'.reports = l.reports + (if f then 1 else 0) ∧
        (f = false → Ready lib n l') ∧
        (f = true → l'.buf.ptr = .null ∧ l'.buf.size = n ∧ l'.r = 0 ∧ l'.w = 0) := by
    intro q ha hq hu hr
    cases f with
    | true =>
      have e : q = .null := hq.2 rfl
      subst e
      exact ⟨{ l with buf := ⟨.null, n, ⟨na, node, intr, al⟩⟩, r := 0, w := 0, reports := l.reports + 1 },
        by simp [conf, Alloc.conf, hp, ha], hr rfl, rfl, rfl, (by intro h; cases h),
        fun _ => ⟨rfl, rfl, rfl, rfl⟩⟩
    | false =>
      have e : q ≠ .null := fun h => by cases hq.1 h
      let i := if pre then n - 1 else 0
      refine ⟨{ l with buf := ⟨q, n, ⟨na, node, intr, al⟩⟩, r := i, w := i }, ?_, usable_releasable (hu rfl), rfl, rfl, fun _ => ?_,
        (by intro h; cases h)⟩
      · simp [conf, Alloc.conf, hp, ha, e, i]
      · refine ⟨hu rfl, rfl, by simp [occupancy], ?_, ?_⟩ <;> (cases pre <;> simp [i] <;> omega)
  rcases hs with ⟨hi, hal⟩ | ⟨hi, hal, hna⟩ | ⟨hi, hal, hna, hnode, hlib⟩ | ⟨hi, hal, hna⟩ <;>
    simp only at hi hal
  · subst hi
    refine hbase (if f then .null else .live .mm n) (by simp [Alloc.allocateMemory, hal]) ?_ ?_ ?_
    · cases f <;> simp
    · intro hf; subst hf; exact ⟨⟨.mm, rfl⟩, rfl⟩
    · intro hf; subst hf; exact ⟨.null, rfl⟩
  · simp only at hna
    subst hi hna
    refine hbase (if f then .null else .live .alignedAlloc n) (by simp [Alloc.allocateMemory, hal]) ?_ ?_ ?_
    · cases f <;> simp
    · intro hf; subst hf; exact ⟨⟨.alignedAlloc, rfl⟩, rfl⟩
    · intro hf; subst hf; exact ⟨.null, rfl⟩
  · simp only at hna hnode
    subst hi hal hna hlib
    refine hbase (if f then .null else .live .numa n) (by simp [Alloc.allocateMemory, hnode]) ?_ ?_ ?_
    · cases f <;> simp
    · intro hf; subst hf; exact ⟨⟨.numa, rfl⟩, rfl⟩
    · intro hf; rcases hn hf with h | h <;> cases h
  · simp only at hna
    subst hi hal hna
    refine hbase (if f then .null else .live .malloc n) (by simp [Alloc.allocateMemory]) ?_ ?_ ?_
    · cases f <;> simp
    · intro hf; subst hf; exact ⟨⟨.malloc, rfl⟩, rfl⟩
    · intro hf; subst hf; exact ⟨.null, rfl⟩

/-- **C114 (partial)** Whatever acceptable `conf` commands a link receives, all of them return, one error is
reported for each whose allocation failed, and a command whose allocation succeeded leaves the link ready,
with the ring that it asked for, whatever happened before it.
Missing: the last command's allocation failed (`C114_null_counterexample`); combinations of options that
select no allocator (C05). -/
theorem C114_conf_partial (lib : Bool) (cs : List Cmd) (last : Cmd)
    (hs : ∀ c ∈ cs, Sane lib c) (hl : Sane lib last) (hf : last.fails = false) :
    ∃ l, confs lib .init (cs ++ [last]) = .returned l ∧ Ready lib last.size l ∧ l.lost = 0 ∧
      l.reports = (cs.filter (·.fails)).length := by
  have gen : ∀ (l : Link), Releasable lib l.buf →
      ∃ l', confs lib l (cs ++ [last]) = .returned l' ∧ Ready lib last.size l' ∧ l'.lost = l.lost ∧
        l'.reports = l.reports + (cs.filter (·.fails)).length := by
    induction cs with
    | nil =>
      intro l h
      obtain ⟨l', e, _, hlost, hr, hok, _⟩ := conf_one lib l h last hl
      exact ⟨l', by simp [confs, e], hok hf, hlost, by simpa [hf] using hr⟩
    | cons c cs ih =>
      intro l h
      obtain ⟨l1, e1, h1, hlost, hr, -, -⟩ := conf_one lib l h c (hs c (by simp))
      obtain ⟨l2, e2, hok, hlost2, hr2⟩ := ih (fun d hd => hs d (by simp [hd])) l1 h1
      refine ⟨l2, by simp [confs, e1, e2], hok, hlost2.trans hlost, ?_⟩
      rw [hr2, hr, List.filter_cons]
      cases c.fails <;> simp <;> omega
  obtain ⟨l, e, hok, h0, hr⟩ := gen .init ⟨.freed, rfl⟩
  exact ⟨l, e, hok, h0, by simpa [Link.init] using hr⟩

/-- Non-vacuity: three commands, the second of which finds no memory. -/
def threeConfs : List Cmd :=
  [⟨100, ⟨false, 0, false, 0⟩, false, false⟩, ⟨5, ⟨false, 0, false, 4096⟩, true, true⟩,
    ⟨4, ⟨false, 0, true, 64⟩, true, false⟩]
example : (∀ c ∈ threeConfs, Sane false c) ∧
    confs false .init threeConfs = .returned ⟨⟨.live .mm 4, 4, ⟨false, 0, true, 64⟩⟩, 3, 3, 1, 0⟩ := by
  refine ⟨?_, by decide⟩
  simp [threeConfs, Sane, SafeOpts, NullOk]

/-- One payload on a ring in owned memory. -/
theorem write_one (l : Link) (n : Nat) (k : Alloc.Kind) (hp : l.buf.ptr = .live k n) (hz : l.buf.size = n)
    (h2 : 2 ≤ n) (hr : l.r < n) (hw : l.w < n) :
    ∃ l', write l = .ok l' ∧ l'.buf = l.buf ∧ l'.r = l.r ∧ l'.w < n ∧
      occupancy l' = min (occupancy l + 1) (n - 1) ∧
      l'.lost + occupancy l' = l.lost + occupancy l + 1 := by
  by_cases h : next l l.w = l.r
  · refine ⟨{ l with lost := l.lost + 1 }, by simp [write, h], rfl, rfl, hw, ?_, ?_⟩
    · simp only [occupancy, next, hz] at *
      by_cases h1 : l.w + 1 = n <;> by_cases h2 : l.w < l.r <;>
        simp only [h1, h2, if_true, if_false] at h ⊢ <;> omega
    · simp only [occupancy]; split <;> omega
  · have e : occupancy { l with w := next l l.w } = occupancy l + 1 ∧ occupancy l + 1 ≤ n - 1 := by
      simp only [occupancy, next, hz] at *
      by_cases h1 : l.w + 1 = n <;> by_cases h2 : l.w < l.r <;> by_cases h3 : l.w + 1 < l.r <;>
        by_cases h4 : 0 < l.r <;>
        simp only [h1, h2, h3, h4, if_true, if_false] at h ⊢ <;> omega
    refine ⟨{ l with w := next l l.w }, by simp [write, h, slot, hp, hw], rfl, rfl, ?_, by omega, ?_⟩
    · simp only [next, hz]; split <;> omega
    · simp only; omega

/-- **C114 (partial: data)** A ready link takes any number of payloads into memory that it owns: the first
`n - 1` are stored, the others are counted as lost. -/
theorem C114_payloads_partial (lib : Bool) (l : Link) (n m : Nat) (hn : 2 ≤ n) (h : Ready lib n l)
    (h0 : l.lost = 0) :
    ∃ l', payloads m l = .ok l' ∧ occupancy l' = min m (n - 1) ∧ l'.lost = m - (n - 1) ∧ l'.buf = l.buf := by
  obtain ⟨⟨⟨k, hk⟩, _⟩, hz, ho, hr, hw⟩ := h
  rw [hz] at hk
  have gen : ∀ m (l : Link), l.buf.ptr = .live k n → l.buf.size = n → l.r < n → l.w < n →
      occupancy l ≤ n - 1 →
      ∃ l', payloads m l = .ok l' ∧ occupancy l' = min (occupancy l + m) (n - 1) ∧
        l'.lost + occupancy l' = l.lost + occupancy l + m ∧ l'.buf = l.buf := by
    intro m
    induction m with
    | zero => intro l _ _ _ _ hle; exact ⟨l, rfl, by omega, by omega, rfl⟩
    | succ m ih =>
      intro l hp hz hr hw hle
      obtain ⟨l1, e1, hb, hr1, hw1, ho1, hl1⟩ := write_one l n k hp hz hn hr hw
      obtain ⟨l2, e2, ho2, hl2, hb2⟩ := ih l1 (by rw [hb, hp]) (by rw [hb, hz]) (by omega) hw1 (by omega)
      exact ⟨l2, by simp [payloads, e1, e2], by omega, by omega, hb2.trans hb⟩
  obtain ⟨l', e, h1, h2, h3⟩ := gen m l hk hz hr hw (by omega)
  exact ⟨l', e, by omega, by omega, h3⟩

/-- Non-vacuity: a ready ring of four slots and five payloads. -/
example : Ready false 4 ⟨⟨.live .mm 4, 4, ⟨false, 0, true, 64⟩⟩, 3, 3, 1, 0⟩ ∧
    payloads 5 ⟨⟨.live .mm 4, 4, ⟨false, 0, true, 64⟩⟩, 3, 3, 1, 0⟩ =
      .ok ⟨⟨.live .mm 4, 4, ⟨false, 0, true, 64⟩⟩, 3, 2, 1, 2⟩ := by
  refine ⟨⟨⟨⟨.mm, rfl⟩, rfl⟩, rfl, by decide, by decide, by decide⟩, by decide⟩

/-- **C114 is false of the code (1)**: when the allocation of the last `conf` command fails, the command
still returns (an error report is all there is), and the first payload of the next run is written through a
null pointer. -/
theorem C114_null_counterexample (lib : Bool) (cs : List Cmd) (last : Cmd)
    (hs : ∀ c ∈ cs, Sane lib c) (hl : Sane lib last) (hf : last.fails = true) :
    ∃ l, confs lib .init (cs ++ [last]) = .returned l ∧ payloads 1 l = .ub .nullDeref := by
  have gen : ∀ (l : Link), Releasable lib l.buf →
      ∃ l', confs lib l (cs ++ [last]) = .returned l' ∧ payloads 1 l' = .ub .nullDeref := by
    induction cs with
    | nil =>
      intro l h
      obtain ⟨l', e, _, _, _, _, hbad⟩ := conf_one lib l h last hl
      obtain ⟨hp, hz, hr, hw⟩ := hbad hf
      have h2 : 2 ≤ last.size := hl.2.1
      refine ⟨l', by simp [confs, e], ?_⟩
      have hne : next l' l'.w ≠ l'.r := by
        simp only [next, hz, hr, hw]
        split <;> omega
      simp [payloads, write, hne, slot, hp]
    | cons c cs ih =>
      intro l h
      obtain ⟨l1, e1, h1, _⟩ := conf_one lib l h c (hs c (by simp))
      obtain ⟨l2, e2, hbad⟩ := ih (fun d hd => hs d (by simp [hd])) l1 h1
      exact ⟨l2, by simp [confs, e1, e2], hbad⟩
  exact gen .init ⟨.freed, rfl⟩

/-- Non-vacuity: one command that finds no memory. -/
example : Sane false ⟨1000000, ⟨false, 0, false, 0⟩, false, true⟩ := by simp [Sane, SafeOpts, NullOk]

/-- **C114 is false of the code (2)**: a combination of options that selects no allocator is not even
reported; the command returns, and the first payload of the next run goes to released memory. -/
theorem C114_dangling_counterexample (lib : Bool) :
    ∃ l, conf lib .init ⟨1000, ⟨true, 8, false, 0⟩, false, false⟩ = .returned l ∧ l.reports = 0 ∧
      payloads 1 l = .ub .danglingBlock :=
  ⟨⟨⟨.freed, 1000, ⟨true, 8, false, 0⟩⟩, 0, 0, 0, 0⟩, by cases lib <;> decide, rfl, by decide⟩

/-- **C114 is false of the code (3)**: a command that fails because NUMA support is not built in leaves the
link without storage, and the corrected command that the operator sends next releases the old storage a
second time. -/
theorem C114_retry_counterexample :
    ∃ l, conf false .init ⟨1000, ⟨true, 0, false, 0⟩, false, false⟩ = .threw .configError l ∧
      conf false l ⟨1000, ⟨false, 0, false, 0⟩, false, false⟩ = .ub .danglingBlock :=
  ⟨⟨⟨.freed, 2, ⟨false, 0, false, 0⟩⟩, 0, 0, 0, 0⟩, by decide, by decide⟩

end Verif.ConfLink
