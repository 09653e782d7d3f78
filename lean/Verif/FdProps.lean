import Verif.FdModel
/-
C107: who acts on which file descriptor.
-/
namespace Verif.Fd

/-! ### Specification, from the calls made and how they ended -/

/-- Calls made so far, each with how it ended; the last one first. -/
abbrev Trace := List (Call × Ret)

/-- The file (and whether with O_DIRECT) writer `i` is to write to: that of its last open if that returned, nothing after
a close, a failed open or its destruction. -/
def wWant (i : Nat) : Trace → Option (Nat × Bool)
  | [] => none
  | (.w j op, r) :: t =>
    if j = i then
      match op with
      | .open_ p d _ _ => if r = .done then some (p, d) else none
      | .write => wWant i t
      | .flush => wWant i t
      | .close => none
      | .destroy => none
    else wWant i t
  | _ :: t => wWant i t

/-- The file reader `i` is to read from: that of the last open that returned, until it is closed; an open that throws
changes nothing. -/
def rWant (i : Nat) : Trace → Option Nat
  | [] => none
  | (.r j op, r) :: t =>
    if j = i then
      match op with
      | .open_ p _ _ => if r = .done then some p else rWant i t
      | .read => rWant i t
      | .close => none
      | .destroy => none
    else rWant i t
  | _ :: t => rWant i t

/-- Handler `i` was configured for recording, the file could be opened, and no recording has ended since. -/
def armed (i : Nat) : Trace → Bool
  | [] => false
  | (.z j op, r) :: t =>
    if j = i then
      match op with
      | .conf _ _ _ _ => if r = .done then true else armed i t
      | .end_ => false
      | .destroy => false
      | .chunk => armed i t
      | .tail => armed i t
      | .last => armed i t
    else armed i t
  | _ :: t => armed i t

/-- The use that is safe: `flush` and `close` of a writer only while it is open; one recording per configuration
of a zero-copy handler that could open its file, and no further configuration for recording, nor its destruction,
before that recording has ended. -/
def Careful (t : Trace) (x : World) : Call → Prop
  | .w i .flush => (x.wr i).isOpen = true
  | .w i .close => (x.wr i).isOpen = true
  | .z i (.conf e _ _ _) => e = true → armed i t = false
  | .z i .destroy => armed i t = false
  | .z i _ => armed i t = true
  | _ => True

/-- States reached by calls that satisfy `ok`, with the calls made. -/
inductive Reach (ok : Trace → World → Call → Prop) : Trace → World → Prop where
  | init : Reach ok [] World.init
  | call (t : Trace) (x x' : World) (c : Call) (r : Ret) (h : Reach ok t x) (hc : ok t x c)
      (he : exec x c = .ok (x', r)) : Reach ok ((c, r) :: t) x'

/-- Every system call so far was made on a descriptor opened by the same object. -/
def OwnOnly (os : Os) : Prop := ∀ e ∈ os.evs, ∃ d, e.was = some d ∧ d.owner = e.by_

/-! ### System calls on one's own descriptors -/

/-- Nothing but descriptors of `o` changed, and all system calls added were on such. -/
structure Fine (o : Obj) (a b : Os) : Prop where
  frame : ∀ n d, d.owner ≠ o → (a.tab n = some d ↔ b.tab n = some d)
  evs : ∃ es, b.evs = a.evs ++ es ∧ ∀ e ∈ es, e.by_ = o ∧ ∃ d, e.was = some d ∧ d.owner = o

theorem Fine.refl (o : Obj) (a : Os) : Fine o a a := ⟨fun _ _ _ => Iff.rfl, [], by simp⟩

theorem Fine.trans {o : Obj} {a b c : Os} (h : Fine o a b) (k : Fine o b c) : Fine o a c := by
  refine ⟨fun n d hd => (h.frame n d hd).trans (k.frame n d hd), ?_⟩
  obtain ⟨es, h1, h2⟩ := h.evs
  obtain ⟨fs, k1, k2⟩ := k.evs
  refine ⟨es ++ fs, by rw [k1, h1, List.append_assoc], ?_⟩
  intro e he
  rcases List.mem_append.1 he with he | he
  · exact h2 e he
  · exact k2 e he

theorem Fine.own {o : Obj} {a b : Os} (h : Fine o a b) (hs : OwnOnly a) : OwnOnly b := by
  obtain ⟨es, h1, h2⟩ := h.evs
  intro e he
  rw [h1] at he
  rcases List.mem_append.1 he with he | he
  · exact hs e he
  · obtain ⟨h3, d, h4, h5⟩ := h2 e he
    exact ⟨d, h4, h5.trans h3.symm⟩

theorem fine_open {os : Os} {d : Desc} {c : Option Nat} : Fine d.owner os (sysOpen os d c).1 := by
  cases c with
  | none => exact Fine.refl _ _
  | some n =>
    unfold sysOpen
    by_cases h : os.tab n = none
    · simp only [h, if_true]
      refine ⟨fun m e he => ?_, [], by simp⟩
      simp only [put]
      by_cases hm : m = n
      · subst hm
        simp only [h, if_true]
        constructor
        · intro h'; cases h'
        · intro h'; exact absurd (congrArg Desc.owner (Option.some.inj h')).symm he
      · simp [hm]
    · simp only [h, if_false]; exact Fine.refl _ _

theorem open_none {os : Os} {d : Desc} {c : Option Nat} (h : (sysOpen os d c).2 = none) : (sysOpen os d c).1 = os := by
  cases c with
  | none => rfl
  | some n =>
    unfold sysOpen at h ⊢
    by_cases hn : os.tab n = none
    · simp [hn] at h
    · simp [hn]

theorem open_some {os : Os} {d : Desc} {c : Option Nat} {n : Nat} (h : (sysOpen os d c).2 = some n) :
    os.tab n = none ∧ (sysOpen os d c).1 = { os with tab := put os.tab n (some d) } := by
  cases c with
  | none => cases h
  | some m =>
    unfold sysOpen at h ⊢
    by_cases hn : os.tab m = none
    · simp only [hn, if_true] at h ⊢
      cases h
      exact ⟨hn, rfl⟩
    · simp [hn] at h

theorem fine_fcntl {os : Os} {o : Obj} {n : Nat} {d : Desc} {b : Bool} (h : os.tab n = some d) (ho : d.owner = o) :
    Fine o os (sysFcntl os o n b) := by
  refine ⟨fun m e he => ?_, _, rfl, ?_⟩
  · simp only [sysFcntl, put]
    by_cases hm : m = n
    · subst hm
      simp only [h, if_true, Option.map_some, Option.some.injEq]
      constructor
      · rintro rfl; exact absurd ho he
      · rintro rfl; exact absurd ho he
    · simp [hm]
  · intro e he
    simp only [List.mem_singleton] at he
    subst he
    exact ⟨rfl, d, h, ho⟩

theorem fine_close {os : Os} {o : Obj} {n : Nat} {d : Desc} (h : os.tab n = some d) (ho : d.owner = o) :
    Fine o os (sysClose os o n) := by
  refine ⟨fun m e he => ?_, _, rfl, ?_⟩
  · simp only [sysClose, put]
    by_cases hm : m = n
    · subst hm
      simp only [h, if_true, Option.some.injEq]
      constructor
      · rintro rfl; exact absurd ho he
      · intro h'; cases h'
    · simp [hm]
  · intro e he
    simp only [List.mem_singleton] at he
    subst he
    exact ⟨rfl, d, h, ho⟩

theorem fine_use {os : Os} {o : Obj} {n : Nat} {d : Desc} {a : Act} (h : os.tab n = some d) (ho : d.owner = o) :
    Fine o os (sysUse os o a n) := by
  refine ⟨fun m e he => Iff.rfl, _, rfl, ?_⟩
  intro e he
  simp only [List.mem_singleton] at he
  subst he
  exact ⟨rfl, d, h, ho⟩

/-! ### What holds of each object between calls -/

/-- A writer: open or not, it holds at most the one descriptor of its sink, and no other is its own. -/
structure WOk (o : Obj) (tab : Nat → Option Desc) (w : W) (want : Option (Nat × Bool)) : Prop where
  chained : w.chained = w.isOpen
  up : w.isOpen = true → ∃ n p d, w.fd = .num n ∧ w.sink = some n ∧ tab n = some ⟨o, p, d, false⟩ ∧ w.useDirect = d ∧
    want = some (p, d)
  down : w.isOpen = false → want = none
  sink : ∀ n, w.sink = some n → ∃ d, tab n = some d ∧ d.owner = o
  only : ∀ n d, tab n = some d → d.owner = o → w.sink = some n

/-- A reader: the device of its chain, and no other is its own. -/
structure ROk (o : Obj) (tab : Nat → Option Desc) (r : R) (want : Option Nat) : Prop where
  flag : r.isOpen = r.chain.isSome
  up : ∀ n, r.chain = some n → ∃ p, tab n = some ⟨o, p, false, false⟩ ∧ want = some p
  down : r.chain = none → want = none
  only : ∀ n d, tab n = some d → d.owner = o → r.chain = some n

/-- A zero-copy handler used carefully. -/
structure ZOk (o : Obj) (tab : Nat → Option Desc) (z : Z) (arm : Bool) : Prop where
  up : arm = true → ∃ n d, z.fd = .num n ∧ tab n = some d ∧ d.owner = o
  only : ∀ n d, tab n = some d → d.owner = o → arm = true ∧ z.fd = .num n

theorem WOk.frame {o o' : Obj} {a b : Os} {w : W} {t : Option (Nat × Bool)} (h : WOk o a.tab w t) (f : Fine o' a b)
    (hne : o ≠ o') : WOk o b.tab w t := by
  refine ⟨h.chained, fun hi => ?_, h.down, fun n hn => ?_, fun n d hd ho => ?_⟩
  · obtain ⟨n, p, d, h1, h2, h3, h4⟩ := h.up hi
    exact ⟨n, p, d, h1, h2, (f.frame n _ hne).1 h3, h4⟩
  · obtain ⟨d, h1, h2⟩ := h.sink n hn
    exact ⟨d, (f.frame n d (h2 ▸ hne)).1 h1, h2⟩
  · exact h.only n d ((f.frame n d (ho ▸ hne)).2 hd) ho

theorem ROk.frame {o o' : Obj} {a b : Os} {r : R} {t : Option Nat} (h : ROk o a.tab r t) (f : Fine o' a b)
    (hne : o ≠ o') : ROk o b.tab r t := by
  refine ⟨h.flag, fun n hn => ?_, h.down, fun n d hd ho => ?_⟩
  · obtain ⟨p, h1, h2⟩ := h.up n hn
    exact ⟨p, (f.frame n _ hne).1 h1, h2⟩
  · exact h.only n d ((f.frame n d (ho ▸ hne)).2 hd) ho

theorem ZOk.frame {o o' : Obj} {a b : Os} {z : Z} {t : Bool} (h : ZOk o a.tab z t) (f : Fine o' a b)
    (hne : o ≠ o') : ZOk o b.tab z t := by
  refine ⟨fun ha => ?_, fun n d hd ho => ?_⟩
  · obtain ⟨n, d, h1, h2, h3⟩ := h.up ha
    exact ⟨n, d, h1, (f.frame n d (h3 ▸ hne)).1 h2, h3⟩
  · exact h.only n d ((f.frame n d (ho ▸ hne)).2 hd) ho

/-! ### Calls on a writer -/

theorem wClose_ok {os : Os} {o : Obj} {w : W} {t : Option (Nat × Bool)} (h : WOk o os.tab w t) (hi : w.isOpen = true)
    (b : Bool) :
    ∃ os' n, wClose os o { w with useDirect := b } = .ok (os', ⟨false, b, .num n, none, false⟩) ∧
      Fine o os os' ∧ (∀ n d, os'.tab n = some d → d.owner ≠ o) := by
  obtain ⟨n, p, d, h1, h2, h3, h4, h5⟩ := h.up hi
  have hch : w.chained = true := h.chained.trans hi
  have e1 : (sysFcntl os o n false).tab n = some ⟨o, p, false, false⟩ := by simp [sysFcntl, put, h3]
  have e2 : (sysUse (sysFcntl os o n false) o .write n).tab n = some ⟨o, p, false, false⟩ := e1
  refine ⟨sysClose (sysUse (sysFcntl os o n false) o .write n) o n, n, ?_, ?_, ?_⟩
  · simp [wClose, onNum, h1, chainReset, hch, h2]
  · exact ((fine_fcntl h3 rfl).trans (fine_use e1 rfl)).trans (fine_close e2 rfl)
  · intro m e hm ho
    by_cases hmn : m = n
    · subst hmn; simp [sysClose, put] at hm
    · have : os.tab m = some e := by simpa [sysClose, sysUse, sysFcntl, put, hmn] using hm
      have := h.only m e this ho
      rw [h2] at this
      exact hmn (Option.some.inj this).symm

theorem wOpenFresh_ok {os : Os} {o : Obj} {w : W} {t : Option (Nat × Bool)} (h : WOk o os.tab w t)
    (hi : w.isOpen = false) (p : Nat) (known : Bool) (c : Option Nat) :
    ∃ os' w' r, wOpenFresh os o w p known c = (os', w', r) ∧ Fine o os os' ∧
      WOk o os'.tab w' (if r = .done then some (p, w.useDirect) else none) := by
  have hch : w.chained = false := h.chained.trans hi
  unfold wOpenFresh
  dsimp only
  cases hr : (sysOpen os ⟨o, p, w.useDirect, false⟩ c).2 with
  | none =>
    refine ⟨_, _, _, rfl, ?_, ?_⟩
    · rw [open_none hr]; exact Fine.refl _ _
    · rw [open_none hr]
      exact ⟨h.chained, fun hi' => (by simp [hi] at hi'), fun _ => by simp, h.sink, h.only⟩
  | some n =>
    obtain ⟨hn, e⟩ := open_some hr
    have f1 : Fine o os (sysOpen os ⟨o, p, w.useDirect, false⟩ c).1 := fine_open (d := ⟨o, p, w.useDirect, false⟩)
    have key : Fine o os (dropSink (sysOpen os ⟨o, p, w.useDirect, false⟩ c).1 o w) ∧
        (dropSink (sysOpen os ⟨o, p, w.useDirect, false⟩ c).1 o w).tab n = some ⟨o, p, w.useDirect, false⟩ ∧
        (∀ m d, (dropSink (sysOpen os ⟨o, p, w.useDirect, false⟩ c).1 o w).tab m = some d → d.owner = o → m = n) := by
      unfold dropSink
      cases hs : w.sink with
      | none =>
        refine ⟨f1, by simp [e, put], fun m d hm ho => ?_⟩
        by_cases hmn : m = n
        · exact hmn
        · have := h.only m d (by simpa [e, put, hmn] using hm) ho
          rw [hs] at this; cases this
      | some k =>
        obtain ⟨d0, hk, ho⟩ := h.sink k hs
        have hkn : k ≠ n := by rintro rfl; rw [hn] at hk; cases hk
        have hk' : (sysOpen os ⟨o, p, w.useDirect, false⟩ c).1.tab k = some d0 := by
          simp only [e, put, hkn, if_false]; exact hk
        refine ⟨f1.trans (fine_close hk' ho), ?_, ?_⟩
        · simp [sysClose, put, e, Ne.symm hkn]
        · intro m d hm hd
          by_cases hmn : m = n
          · exact hmn
          · by_cases hmk : m = k
            · subst hmk; simp [sysClose, put] at hm
            · have := h.only m d (by simpa [sysClose, e, put, hmn, hmk] using hm) hd
              rw [hs] at this
              exact absurd (Option.some.inj this).symm hmk
    obtain ⟨k1, k2, k3⟩ := key
    cases known with
    | false =>
      refine ⟨_, _, _, rfl, k1, ?_⟩
      refine ⟨h.chained, fun hi' => (by simp [hi] at hi'), fun _ => by simp, ?_, ?_⟩
      · intro m hm; cases hm; exact ⟨_, k2, rfl⟩
      · intro m d hm hd; rw [k3 m d hm hd]
    | true =>
      simp only [hch]
      refine ⟨_, _, _, rfl, k1, ?_⟩
      refine ⟨rfl, fun _ => ⟨n, p, w.useDirect, rfl, rfl, k2, rfl, by simp⟩, fun hi' => (by simp at hi'), ?_, ?_⟩
      · intro m hm; cases hm; exact ⟨_, k2, rfl⟩
      · intro m d hm hd; rw [k3 m d hm hd]

/-- Every careful call on a writer succeeds without touching what is not its own. -/
theorem wCall_ok {os : Os} {i : Nat} {w : W} {t : Trace} (h : WOk (.writer i) os.tab w (wWant i t)) (op : WOp)
    (hc : op = .flush ∨ op = .close → w.isOpen = true) :
    ∃ os' w' r, wCall os (.writer i) w op = .ok (os', w', r) ∧ Fine (.writer i) os os' ∧
      WOk (.writer i) os'.tab w' (wWant i ((.w i op, r) :: t)) := by
  cases op with
  | open_ p d known c =>
    simp only [wCall, wOpen, wWant, if_true]
    cases hi : w.isOpen with
    | false =>
      have h1 : WOk (.writer i) os.tab { w with useDirect := d } none :=
        ⟨h.chained, fun hi' => (by simp [hi] at hi'), fun _ => rfl, h.sink, h.only⟩
      obtain ⟨os', w', r, e1, e2, e3⟩ := wOpenFresh_ok h1 hi p known c
      refine ⟨os', w', r, ?_, e2, e3⟩
      rw [← e1]
      simp [hi]
    | true =>
      obtain ⟨os', m, c1, c2, c3⟩ := wClose_ok h hi d
      have h1 : WOk (.writer i) os'.tab ⟨false, d, .num m, none, false⟩ none :=
        ⟨rfl, fun hi' => (by simp at hi'), fun _ => rfl, fun n hn => (by cases hn),
          fun n d hn hd => absurd hd (c3 n d hn)⟩
      obtain ⟨os'', w', r, e1, e2, e3⟩ := wOpenFresh_ok h1 rfl p known c
      refine ⟨os'', w', r, ?_, c2.trans e2, e3⟩
      rw [hi] at c1
      simp only [if_true, c1, Outcome.bind_ok, e1]
  | write =>
    simp only [wCall, wWrite, wWant, if_true]
    cases hi : w.isOpen with
    | false => exact ⟨_, _, _, rfl, Fine.refl _ _, h⟩
    | true =>
      obtain ⟨n, q, b, u1, u2, u3, u4, u5⟩ := h.up hi
      simp only [u2]
      exact ⟨_, _, _, rfl, fine_use u3 rfl, h⟩
  | flush =>
    have hi := hc (Or.inl rfl)
    obtain ⟨n, q, b, u1, u2, u3, u4, u5⟩ := h.up hi
    have hch : w.chained = true := h.chained.trans hi
    have e1 : (sysFcntl os (.writer i) n false).tab n = some ⟨.writer i, q, false, false⟩ := by simp [sysFcntl, put, u3]
    have e2 : (sysUse (sysFcntl os (.writer i) n false) (.writer i) .write n).tab n
        = some ⟨.writer i, q, false, false⟩ := e1
    simp only [wCall, wFlush, onNum, u1, hch, u2, Outcome.bind_ok, wWant, if_true]
    have f := ((fine_fcntl u3 rfl).trans (fine_use (a := .write) e1 rfl)).trans (fine_fcntl (b := w.useDirect) e2 rfl)
    refine ⟨_, _, _, rfl, f, ?_⟩
    refine ⟨h.chained, fun _ => ⟨n, q, b, u1, u2, ?_, u4, u5⟩, fun hi' => (by simp [hi] at hi'), ?_, ?_⟩
    · simp [sysFcntl, sysUse, put, u3, u4]
    · intro m hm
      rw [u2] at hm; cases hm
      exact ⟨⟨.writer i, q, w.useDirect, false⟩, by simp [sysFcntl, sysUse, put, u3], rfl⟩
    · intro m d hm hd
      by_cases hmn : m = n
      · rw [hmn]; exact u2
      · exact h.only m d (by simpa [sysFcntl, sysUse, put, hmn] using hm) hd
  | close =>
    have hi := hc (Or.inr rfl)
    obtain ⟨os', n, c1, c2, c3⟩ := wClose_ok h hi w.useDirect
    simp only [wCall, show wClose os (.writer i) w = _ from c1, Outcome.bind_ok, wWant, if_true]
    exact ⟨_, _, _, rfl, c2, rfl, fun hi' => (by simp at hi'), fun _ => rfl, fun n hn => (by cases hn),
      fun n d hn hd => absurd hd (c3 n d hn)⟩
  | destroy =>
    simp only [wCall, wDestroy, wWant, if_true]
    cases hi : w.isOpen with
    | true =>
      obtain ⟨os', n, c1, c2, c3⟩ := wClose_ok h hi w.useDirect
      simp only [if_true, show wClose os (.writer i) w = _ from c1, Outcome.bind_ok]
      exact ⟨_, _, _, rfl, c2, rfl, fun hi' => (by simp [W.new] at hi'), fun _ => rfl,
        fun n hn => (by simp [W.new] at hn), fun n d hn hd => absurd hd (c3 n d hn)⟩
    | false =>
      refine ⟨dropSink os (.writer i) w, W.new, .done, by simp, ?_, rfl, fun hi' => (by simp [W.new] at hi'), fun _ => rfl,
        fun n hn => (by simp [W.new] at hn), ?_⟩
      · unfold dropSink
        cases hs : w.sink with
        | none => exact Fine.refl _ _
        | some k =>
          obtain ⟨d0, hk, ho⟩ := h.sink k hs
          exact fine_close hk ho
      · intro n d hn hd
        exfalso
        unfold dropSink at hn
        cases hs : w.sink with
        | none =>
          rw [hs] at hn
          have := h.only n d hn hd
          rw [hs] at this; cases this
        | some k =>
          rw [hs] at hn
          by_cases hnk : n = k
          · subst hnk; simp [sysClose, put] at hn
          · have := h.only n d (by simpa [sysClose, put, hnk] using hn) hd
            rw [hs] at this
            exact hnk (Option.some.inj this).symm

/-! ### Calls on a reader -/

theorem rCall_ok {os : Os} {i : Nat} {r : R} {t : Trace} (h : ROk (.reader i) os.tab r (rWant i t)) (op : ROp) :
    ∃ os' r' x, rCall os (.reader i) r op = .ok (os', r', x) ∧ Fine (.reader i) os os' ∧
      ROk (.reader i) os'.tab r' (rWant i ((.r i op, x) :: t)) := by
  have hclose : ∃ os' x, rClose os (.reader i) r = (os', ⟨false, none⟩, x) ∧ Fine (.reader i) os os' ∧
      ROk (.reader i) os'.tab ⟨false, none⟩ none := by
    unfold rClose
    cases hr : r.chain with
    | none =>
      refine ⟨_, _, rfl, Fine.refl _ _, rfl, fun n hn => (by cases hn), fun _ => rfl, fun n d hn hd => ?_⟩
      have := h.only n d hn hd
      rw [hr] at this; cases this
    | some k =>
      obtain ⟨p, hk, -⟩ := h.up k hr
      refine ⟨_, _, rfl, fine_close hk rfl, rfl, fun n hn => (by cases hn), fun _ => rfl, fun n d hn hd => ?_⟩
      exfalso
      by_cases hnk : n = k
      · subst hnk; simp [sysClose, put] at hn
      · have := h.only n d (by simpa [sysClose, put, hnk] using hn) hd
        rw [hr] at this
        exact hnk (Option.some.inj this).symm
  cases op with
  | open_ p known c =>
    simp only [rCall, rOpen, rWant, if_true]
    cases hr : (sysOpen os ⟨.reader i, p, false, false⟩ c).2 with
    | none =>
      refine ⟨_, _, _, rfl, ?_, ?_⟩
      · rw [open_none hr]; exact Fine.refl _ _
      · rw [open_none hr]; exact h
    | some n =>
      obtain ⟨hn, e⟩ := open_some hr
      have f1 : Fine (.reader i) os (sysOpen os ⟨.reader i, p, false, false⟩ c).1 :=
        fine_open (d := ⟨.reader i, p, false, false⟩)
      have hx : (sysOpen os ⟨.reader i, p, false, false⟩ c).1.tab n = some ⟨.reader i, p, false, false⟩ := by
        simp [e, put]
      have hback : Fine (.reader i) os (sysClose (sysOpen os ⟨.reader i, p, false, false⟩ c).1 (.reader i) n) ∧
          ROk (.reader i) (sysClose (sysOpen os ⟨.reader i, p, false, false⟩ c).1 (.reader i) n).tab r (rWant i t) := by
        refine ⟨f1.trans (fine_close hx rfl), ?_⟩
        have : (sysClose (sysOpen os ⟨.reader i, p, false, false⟩ c).1 (.reader i) n).tab = os.tab := by
          funext m
          by_cases hm : m = n
          · subst hm; simp [sysClose, put, hn]
          · simp [sysClose, put, e, hm]
        rw [this]; exact h
      cases known with
      | false => exact ⟨_, _, _, rfl, hback.1, hback.2⟩
      | true =>
        cases hch : r.chain with
        | some k =>
          simp only [Option.isSome_some, if_true]
          exact ⟨_, _, _, rfl, hback.1, hback.2⟩
        | none =>
          refine ⟨_, _, _, rfl, f1, rfl, ?_, fun hn => (by cases hn), ?_⟩
          · intro m hm; cases hm; exact ⟨p, hx, by simp⟩
          · intro m d hm hd
            by_cases hmn : m = n
            · rw [hmn]
            · have := h.only m d (by simpa [e, put, hmn] using hm) hd
              rw [hch] at this; cases this
  | read =>
    simp only [rCall, rRead, rWant, if_true]
    cases hi : r.isOpen with
    | false => exact ⟨_, _, _, rfl, Fine.refl _ _, h⟩
    | true =>
      cases hch : r.chain with
      | none => have := h.flag; rw [hi, hch] at this; cases this
      | some n =>
        obtain ⟨p, hk, -⟩ := h.up n hch
        exact ⟨_, _, _, rfl, fine_use hk rfl, h⟩
  | close =>
    obtain ⟨os', x, e1, e2, e3⟩ := hclose
    refine ⟨os', ⟨false, none⟩, x, by simp only [rCall, e1], e2, ?_⟩
    simpa [rWant] using e3
  | destroy =>
    obtain ⟨os', x, e1, e2, e3⟩ := hclose
    refine ⟨os', ⟨false, none⟩, x, by simp only [rCall, e1], e2, ?_⟩
    simpa [rWant] using e3

/-! ### Calls on a zero-copy handler -/

theorem ZOk.put {o : Obj} {os os' : Os} {z : Z} {n : Nat} {d d' : Desc} (h : ZOk o os.tab z true) (hf : z.fd = .num n)
    (hn : os'.tab n = some d') (hd : d'.owner = o) (hrest : ∀ m, m ≠ n → os'.tab m = os.tab m) : ZOk o os'.tab z true := by
  refine ⟨fun _ => ⟨n, d', hf, hn, hd⟩, fun m e hm he => ⟨rfl, ?_⟩⟩
  by_cases hmn : m = n
  · rw [hmn]; exact hf
  · exact (h.only m e (by rw [← hrest m hmn]; exact hm) he).2

theorem zCall_ok {os : Os} {i : Nat} {z : Z} {t : Trace} (h : ZOk (.zc i) os.tab z (armed i t)) (op : ZOp)
    (hc : match op with
      | .conf e _ _ _ => e = true → armed i t = false
      | .destroy => armed i t = false
      | _ => armed i t = true) :
    ∃ os' z' x, zCall os (.zc i) z op = .ok (os', z', x) ∧ Fine (.zc i) os os' ∧
      ZOk (.zc i) os'.tab z' (armed i ((.z i op, x) :: t)) := by
  cases op with
  | conf e p d c =>
    simp only [zCall, zConf, armed, if_true]
    cases e with
    | false => exact ⟨_, _, _, rfl, Fine.refl _ _, by simpa using h⟩
    | true =>
      have ha : armed i t = false := hc rfl
      rw [ha] at h
      simp only [if_true]
      cases hr : (sysOpen os ⟨.zc i, p, d, false⟩ c).2 with
      | none =>
        refine ⟨_, _, _, rfl, ?_, ?_⟩
        · rw [open_none hr]; exact Fine.refl _ _
        · rw [open_none hr]
          simp only [ha]
          refine ⟨fun h' => (by simp at h'), fun n d' hn hd => ?_⟩
          have := (h.only n d' hn hd).1
          simp at this
      | some n =>
        obtain ⟨hn, e⟩ := open_some hr
        refine ⟨_, _, _, rfl, fine_open (d := ⟨.zc i, p, d, false⟩), ?_⟩
        refine ⟨fun _ => ⟨n, ⟨.zc i, p, d, false⟩, rfl, by simp [e, put], rfl⟩, fun m d' hm hd => ⟨by simp, ?_⟩⟩
        by_cases hmn : m = n
        · rw [hmn]; rfl
        · have := (h.only m d' (by simpa [e, put, hmn] using hm) hd).1
          simp at this
  | destroy =>
    have ha : armed i t = false := hc
    rw [ha] at h
    simp only [zCall, armed, if_true]
    refine ⟨_, _, _, rfl, Fine.refl _ _, fun h' => (by simp at h'), fun n d hn hd => ?_⟩
    have := (h.only n d hn hd).1
    simp at this
  | chunk =>
    have ha : armed i t = true := hc
    obtain ⟨n, d, h1, h2, h3⟩ := h.up ha
    simp only [zCall, zChunk, onNum, h1, Outcome.bind_ok, armed, if_true]
    exact ⟨_, _, _, rfl, fine_use h2 h3, h⟩
  | tail =>
    have ha : armed i t = true := hc
    obtain ⟨n, d, h1, h2, h3⟩ := h.up ha
    rw [ha] at h
    simp only [zCall, zTail, onNum, h1, Outcome.bind_ok, armed, if_true, ha]
    have e1 : (sysFcntl os (.zc i) n false).tab n = some { d with direct := false, append := false } := by
      simp [sysFcntl, put, h2]
    have e2 : (sysUse (sysFcntl os (.zc i) n false) (.zc i) .write n).tab n
        = some { d with direct := false, append := false } := e1
    refine ⟨_, _, _, rfl, ((fine_fcntl h2 h3).trans (fine_use e1 h3)).trans (fine_fcntl e2 h3), ?_⟩
    refine h.put (d := d) (d' := { d with direct := z.direct, append := false }) h1 ?_ h3 ?_
    · simp [sysFcntl, sysUse, put, h2]
    · intro m hm; simp [sysFcntl, sysUse, put, hm]
  | last =>
    have ha : armed i t = true := hc
    obtain ⟨n, d, h1, h2, h3⟩ := h.up ha
    rw [ha] at h
    simp only [zCall, zLast, onNum, h1, Outcome.bind_ok, armed, if_true, ha]
    have e1 : (sysFcntl os (.zc i) n false).tab n = some { d with direct := false, append := false } := by
      simp [sysFcntl, put, h2]
    refine ⟨_, _, _, rfl, (fine_fcntl h2 h3).trans (fine_use e1 h3), ?_⟩
    refine h.put (d := d) (d' := { d with direct := false, append := false }) h1 e1 h3 ?_
    intro m hm; simp [sysFcntl, sysUse, put, hm]
  | end_ =>
    have ha : armed i t = true := hc
    obtain ⟨n, d, h1, h2, h3⟩ := h.up ha
    simp only [zCall, zEnd, onNum, h1, Outcome.bind_ok, armed, if_true]
    refine ⟨_, _, _, rfl, fine_close h2 h3, fun h' => (by simp at h'), fun m e hm he => ?_⟩
    by_cases hmn : m = n
    · subst hmn; simp [sysClose, put] at hm
    · have := (h.only m e (by simpa [sysClose, put, hmn] using hm) he).2
      rw [h1] at this
      injection this with this
      exact absurd this.symm hmn

/-! ### All objects together -/

/-- All objects are as they should, and so were all system calls. -/
structure Inv (t : Trace) (x : World) : Prop where
  own : OwnOnly x.os
  w : ∀ i, WOk (.writer i) x.os.tab (x.wr i) (wWant i t)
  r : ∀ i, ROk (.reader i) x.os.tab (x.rd i) (rWant i t)
  z : ∀ i, ZOk (.zc i) x.os.tab (x.zc i) (armed i t)

theorem inv_call {t : Trace} {x : World} (inv : Inv t x) (c : Call) (hc : Careful t x c) :
    ∃ x' r, exec x c = .ok (x', r) ∧ Fine c.obj x.os x'.os ∧ Inv ((c, r) :: t) x' := by
  cases c with
  | w i op =>
    obtain ⟨os', w', r, e1, e2, e3⟩ := wCall_ok (inv.w i) op (by
      rintro (rfl | rfl)
      · exact hc
      · exact hc)
    refine ⟨{ x with os := os', wr := upd x.wr i w' }, r, by simp only [exec, e1, Outcome.bind_ok], e2, e2.own inv.own, fun j => ?_, fun j => ?_, fun j => ?_⟩
    · by_cases hj : j = i
      · subst hj; simpa [upd] using e3
      · have := (inv.w j).frame e2 (fun hh => hj (by injection hh))
        simpa [upd, hj, wWant, Ne.symm hj] using this
    · exact (inv.r j).frame e2 (by simp)
    · exact (inv.z j).frame e2 (by simp)
  | r i op =>
    obtain ⟨os', w', r, e1, e2, e3⟩ := rCall_ok (inv.r i) op
    refine ⟨{ x with os := os', rd := upd x.rd i w' }, r, by simp only [exec, e1, Outcome.bind_ok], e2, e2.own inv.own, fun j => ?_, fun j => ?_, fun j => ?_⟩
    · exact (inv.w j).frame e2 (by simp)
    · by_cases hj : j = i
      · subst hj; simpa [upd] using e3
      · have := (inv.r j).frame e2 (fun hh => hj (by injection hh))
        simpa [upd, hj, rWant, Ne.symm hj] using this
    · exact (inv.z j).frame e2 (by simp)
  | z i op =>
    obtain ⟨os', w', r, e1, e2, e3⟩ := zCall_ok (inv.z i) op (by cases op <;> exact hc)
    refine ⟨{ x with os := os', zc := upd x.zc i w' }, r, by simp only [exec, e1, Outcome.bind_ok], e2, e2.own inv.own, fun j => ?_, fun j => ?_, fun j => ?_⟩
    · exact (inv.w j).frame e2 (by simp)
    · exact (inv.r j).frame e2 (by simp)
    · by_cases hj : j = i
      · subst hj; simpa [upd] using e3
      · have := (inv.z j).frame e2 (fun hh => hj (by injection hh))
        simpa [upd, hj, armed, Ne.symm hj] using this
  | envOpen i p a c =>
    have f : Fine (.env i) x.os (sysOpen x.os ⟨.env i, p, false, a⟩ c).1 := fine_open (d := ⟨.env i, p, false, a⟩)
    exact ⟨_, _, rfl, f, f.own inv.own, fun j => (inv.w j).frame f (by simp), fun j => (inv.r j).frame f (by simp),
      fun j => (inv.z j).frame f (by simp)⟩
  | envClose i n =>
    have f : Fine (.env i) x.os (envClose x.os (.env i) n) := by
      unfold envClose
      cases hn : x.os.tab n with
      | none => exact Fine.refl _ _
      | some d =>
        by_cases hd : d.owner = .env i
        · simp only [hd, if_true]; exact fine_close hn hd
        · simp only [hd, if_false]; exact Fine.refl _ _
    exact ⟨_, _, rfl, f, f.own inv.own, fun j => (inv.w j).frame f (by simp), fun j => (inv.r j).frame f (by simp),
      fun j => (inv.z j).frame f (by simp)⟩

theorem inv_reach {t : Trace} {x : World} (h : Reach Careful t x) : Inv t x := by
  induction h with
  | init =>
    refine ⟨fun e he => (by simp [World.init] at he), fun i => ?_, fun i => ?_, fun i => ?_⟩
    · exact ⟨rfl, fun h => (by simp [World.init, W.new] at h), fun _ => rfl, fun n h => (by simp [World.init, W.new] at h),
        fun n d h => (by simp [World.init] at h)⟩
    · exact ⟨rfl, fun n h => (by simp [World.init, R.new] at h), fun _ => rfl, fun n d h => (by simp [World.init] at h)⟩
    · exact ⟨fun h => (by simp [armed] at h), fun n d h => (by simp [World.init] at h)⟩
  | call t x x' c r h hc he ih =>
    obtain ⟨y, r', e1, -, e3⟩ := inv_call ih c hc
    rw [he] at e1
    injection e1 with e1
    rw [Prod.mk.injEq] at e1
    obtain ⟨rfl, rfl⟩ := e1
    exact e3

/-! ### Property C107 -/

/-- **C107 (own descriptors)** However many writers, readers and zero-copy handlers a process has and in whatever order
they are called, and whichever opens fail: used with care, every system call they make is made on a descriptor that the
calling object opened itself, and no call has undefined behaviour. Without that care it is false, see the
counterexamples. -/
theorem C107_own_descriptors_partial (t : Trace) (x : World) (h : Reach Careful t x) :
    OwnOnly x.os ∧ ∀ c, Careful t x c → ∃ x' r, exec x c = .ok (x', r) := by
  refine ⟨(inv_reach h).own, fun c hc => ?_⟩
  obtain ⟨x', r, e, -, -⟩ := inv_call (inv_reach h) c hc
  exact ⟨x', r, e⟩

/-- **C107 (others untouched)** A call leaves all descriptors of other objects and of the rest of the process as
they were: open, on the same file, with the same flags. -/
theorem C107_others_untouched_partial (t : Trace) (x x' : World) (r : Ret) (c : Call) (h : Reach Careful t x)
    (hc : Careful t x c) (he : exec x c = .ok (x', r)) (n : Nat) (d : Desc) (hd : d.owner ≠ c.obj) :
    x.os.tab n = some d ↔ x'.os.tab n = some d := by
  obtain ⟨y, r', e, f, -⟩ := inv_call (inv_reach h) c hc
  rw [he] at e
  injection e with e
  rw [Prod.mk.injEq] at e
  obtain ⟨rfl, rfl⟩ := e
  exact f.frame n d hd

/-- **C107 (no leak)** No object ever holds more than one descriptor, whichever opens failed or threw; a closed reader, a
zero-copy handler whose recording has ended and a destroyed object hold none. -/
theorem C107_no_leak_partial (t : Trace) (x : World) (h : Reach Careful t x) :
    (∀ n m d e, x.os.tab n = some d → x.os.tab m = some e → d.owner = e.owner → (∀ i, d.owner ≠ .env i) → n = m) ∧
    (∀ i n d, (x.rd i).isOpen = false → x.os.tab n = some d → d.owner ≠ .reader i) ∧
    (∀ i n d, armed i t = false → x.os.tab n = some d → d.owner ≠ .zc i) ∧
    (∀ i x' r, exec x (.w i .destroy) = .ok (x', r) → ∀ n d, x'.os.tab n = some d → d.owner ≠ .writer i) ∧
    (∀ i x' r, exec x (.w i .close) = .ok (x', r) → (x.wr i).isOpen = true →
      ∀ n d, x'.os.tab n = some d → d.owner ≠ .writer i) := by
  have inv := inv_reach h
  have hex : ∀ c x' r, Careful t x c → exec x c = .ok (x', r) → Inv ((c, r) :: t) x' := by
    intro c x' r hc he
    exact inv_reach (.call t x x' c r h hc he)
  refine ⟨?_, ?_, ?_, ?_, ?_⟩
  · intro n m d e hn hm ho hne
    cases hd : d.owner with
    | writer i =>
      have h1 := (inv.w i).only n d hn hd
      have h2 := (inv.w i).only m e hm (ho ▸ hd)
      rw [h1] at h2; exact Option.some.inj h2
    | reader i =>
      have h1 := (inv.r i).only n d hn hd
      have h2 := (inv.r i).only m e hm (ho ▸ hd)
      rw [h1] at h2; exact Option.some.inj h2
    | zc i =>
      have h1 := ((inv.z i).only n d hn hd).2
      have h2 := ((inv.z i).only m e hm (ho ▸ hd)).2
      rw [h1] at h2; injection h2
    | env i => exact absurd hd (hne i)
  · intro i n d hi hn hd
    have h1 := (inv.r i).only n d hn hd
    have h2 := (inv.r i).flag
    rw [h1, hi] at h2; cases h2
  · intro i n d ha hn hd
    have h1 := ((inv.z i).only n d hn hd).1
    rw [ha] at h1; cases h1
  · intro i x' r he n d hn hd
    have hi := hex (.w i .destroy) x' r trivial he
    have h1 := (hi.w i).only n d hn hd
    obtain ⟨os', w', r', e1, -, -⟩ := wCall_ok (inv.w i) .destroy (by simp)
    have hw : w' = W.new := by
      simp only [wCall, wDestroy] at e1
      cases hio : (x.wr i).isOpen with
      | false => simp [hio] at e1; exact e1.2.1.symm
      | true =>
        obtain ⟨os'', k, c1, -, -⟩ := wClose_ok (inv.w i) hio (x.wr i).useDirect
        rw [hio] at e1
        simp only [if_true, show wClose x.os (.writer i) (x.wr i) = _ from c1, Outcome.bind_ok] at e1
        injection e1 with e1
        rw [Prod.mk.injEq, Prod.mk.injEq] at e1
        exact e1.2.1.symm
    simp only [exec, e1, Outcome.bind_ok] at he
    injection he with he
    rw [Prod.mk.injEq] at he
    rw [← he.1] at h1
    simp [upd, hw, W.new] at h1
  · intro i x' r he hio n d hn hd
    have hi := hex (.w i .close) x' r hio he
    have h1 := (hi.w i).only n d hn hd
    obtain ⟨os'', k, c1, -, -⟩ := wClose_ok (inv.w i) hio (x.wr i).useDirect
    simp only [exec, wCall, show wClose x.os (.writer i) (x.wr i) = _ from c1, Outcome.bind_ok] at he
    injection he with he
    rw [Prod.mk.injEq] at he
    rw [← he.1] at h1
    simp [upd] at h1

/-- **C107 (right file)** What is written to a writer goes to the file of its last open, with O_DIRECT as asked for
there, if that open returned and nothing closed the writer since; otherwise the write is refused and nothing happens.
Likewise for reading. -/
theorem C107_right_file_partial (t : Trace) (x : World) (h : Reach Careful t x) (i : Nat) :
    (match wWant i t with
      | some (p, b) => (x.wr i).isOpen = true ∧ ∃ x', exec x (.w i .write) = .ok (x', .done) ∧
          x'.os.evs = x.os.evs ++ [⟨.writer i, .write, some ⟨.writer i, p, b, false⟩⟩]
      | none => (x.wr i).isOpen = false ∧ ∃ x', exec x (.w i .write) = .ok (x', .refused) ∧ x'.os = x.os) ∧
    (match rWant i t with
      | some p => (x.rd i).isOpen = true ∧ ∃ x', exec x (.r i .read) = .ok (x', .done) ∧
          x'.os.evs = x.os.evs ++ [⟨.reader i, .read, some ⟨.reader i, p, false, false⟩⟩]
      | none => (x.rd i).isOpen = false ∧ ∃ x', exec x (.r i .read) = .ok (x', .refused) ∧ x'.os = x.os) := by
  have inv := inv_reach h
  constructor
  · have hw := inv.w i
    cases hio : (x.wr i).isOpen with
    | false =>
      rw [hw.down hio]
      exact ⟨rfl, { x with wr := upd x.wr i (x.wr i) }, by simp [exec, wCall, wWrite, hio], rfl⟩
    | true =>
      obtain ⟨n, p, d, u1, u2, u3, u4, u5⟩ := hw.up hio
      rw [u5]
      refine ⟨rfl, { x with os := sysUse x.os (.writer i) .write n, wr := upd x.wr i (x.wr i) }, ?_, ?_⟩
      · simp [exec, wCall, wWrite, hio, u2]
      · simp [sysUse, u3]
  · have hr := inv.r i
    cases hch : (x.rd i).chain with
    | none =>
      have hio : (x.rd i).isOpen = false := by rw [hr.flag, hch]; rfl
      rw [hr.down hch]
      exact ⟨hio, { x with rd := upd x.rd i (x.rd i) }, by simp [exec, rCall, rRead, hio], rfl⟩
    | some n =>
      have hio : (x.rd i).isOpen = true := by rw [hr.flag, hch]; rfl
      obtain ⟨p, u1, u2⟩ := hr.up n hch
      rw [u2]
      refine ⟨hio, { x with os := sysUse x.os (.reader i) .read n, rd := upd x.rd i (x.rd i) }, ?_, ?_⟩
      · simp [exec, rCall, rRead, hio, hch]
      · simp [sysUse, u1]

/-! ### Concrete processes -/

/-- Any sequence of calls. -/
def Any : Trace → World → Call → Prop := fun _ _ _ => True

/-- A careful process: a writer is opened on file 10 with O_DIRECT, an open with an unknown compression fails, it is opened
again on file 11, a reader is opened twice, a zero-copy handler records once; writes and reads go where they should. -/
theorem careful_demo : ∃ t x, Reach Careful t x ∧ wWant 0 t = some (11, true) ∧ rWant 0 t = some 12 ∧ armed 0 t = true ∧
    x.os.evs.length = 6 ∧ x.os.tab 3 = some ⟨.reader 0, 12, false, false⟩ ∧
    x.os.tab 4 = some ⟨.writer 0, 11, true, false⟩ ∧ x.os.tab 5 = some ⟨.zc 0, 14, true, false⟩ := by
  have r0 : Reach Careful _ _ := .init
  have r1 := Reach.call _ _ _ (.w 0 (.open_ 10 true true (some 3))) _ r0 trivial rfl
  have r2 := Reach.call _ _ _ (.w 0 (.open_ 10 true false (some 3))) _ r1 trivial rfl
  have r3 := Reach.call _ _ _ (.w 0 (.open_ 11 true true (some 4))) _ r2 trivial rfl
  have r4 := Reach.call _ _ _ (.r 0 (.open_ 12 true (some 3))) _ r3 trivial rfl
  have r5 := Reach.call _ _ _ (.r 0 (.open_ 13 true (some 5))) _ r4 trivial rfl
  have r6 := Reach.call _ _ _ (.z 0 (.conf true 14 true (some 5))) _ r5 (fun _ => rfl) rfl
  have r7 := Reach.call _ _ _ (.z 0 .chunk) _ r6 rfl rfl
  exact ⟨_, _, r7, rfl, rfl, rfl, rfl, rfl, rfl, rfl⟩

/-- **C107 is false of the code** for a second recording of a zero-copy handler without a configuration in between: the
first recording has closed the descriptor, its number now stands for a file the rest of the process opened,
the second recording writes into that file and closes it. -/
theorem C107_second_recording_counterexample : ∃ t x, Reach Any t x ∧
    t.map (·.1) = [.z 0 .end_, .z 0 .chunk, .envOpen 0 20 false (some 3), .z 0 .end_, .z 0 .chunk,
      .z 0 (.conf true 14 true (some 3))] ∧
    ⟨.zc 0, .write, some ⟨.env 0, 20, false, false⟩⟩ ∈ x.os.evs ∧ x.os.tab 3 = none ∧ ¬ OwnOnly x.os := by
  have r0 : Reach Any _ _ := .init
  have r1 := Reach.call _ _ _ (.z 0 (.conf true 14 true (some 3))) _ r0 trivial rfl
  have r2 := Reach.call _ _ _ (.z 0 .chunk) _ r1 trivial rfl
  have r3 := Reach.call _ _ _ (.z 0 .end_) _ r2 trivial rfl
  have r4 := Reach.call _ _ _ (.envOpen 0 20 false (some 3)) _ r3 trivial rfl
  have r5 := Reach.call _ _ _ (.z 0 .chunk) _ r4 trivial rfl
  have r6 := Reach.call _ _ _ (.z 0 .end_) _ r5 trivial rfl
  refine ⟨_, _, r6, rfl, List.mem_of_elem_eq_true rfl, rfl, fun h => ?_⟩
  obtain ⟨d, h1, h2⟩ := h ⟨.zc 0, .write, some ⟨.env 0, 20, false, false⟩⟩ (List.mem_of_elem_eq_true rfl)
  cases h1
  cases h2

/-- **C107 is false of the code** for a zero-copy handler that was not configured for recording: `record` does not
check that, and uses a descriptor number that was never assigned. -/
theorem C107_unconfigured_record_counterexample : ∃ t x, Reach Any t x ∧
    t.map (·.1) = [.z 0 (.conf false 14 true (some 3))] ∧ exec x (.z 0 .chunk) = .ub .deadObject := by
  have r0 : Reach Any _ _ := .init
  have r1 := Reach.call _ _ _ (.z 0 (.conf false 14 true (some 3))) _ r0 trivial rfl
  exact ⟨_, _, r1, rfl, rfl⟩

/-- **C107 is false of the code** for a zero-copy handler configured twice, or destroyed without having recorded: the
descriptors stay open for good. -/
theorem C107_reconfigured_leak_counterexample : ∃ t x, Reach Any t x ∧
    t.map (·.1) = [.z 0 .destroy, .z 0 (.conf true 14 true (some 4)), .z 0 (.conf true 14 true (some 3))] ∧
    x.os.tab 3 = some ⟨.zc 0, 14, true, false⟩ ∧ x.os.tab 4 = some ⟨.zc 0, 14, true, false⟩ := by
  have r0 : Reach Any _ _ := .init
  have r1 := Reach.call _ _ _ (.z 0 (.conf true 14 true (some 3))) _ r0 trivial rfl
  have r2 := Reach.call _ _ _ (.z 0 (.conf true 14 true (some 4))) _ r1 trivial rfl
  have r3 := Reach.call _ _ _ (.z 0 .destroy) _ r2 trivial rfl
  exact ⟨_, _, r3, rfl, rfl, rfl⟩

/-- **C107 is false of the code** for `flush` of a closed writer: it changes the flags of whatever now has the number,
here a log file opened for appending, which loses O_APPEND and gets O_DIRECT. -/
theorem C107_flush_closed_counterexample : ∃ t x, Reach Any t x ∧
    t.map (·.1) = [.w 0 .flush, .envOpen 0 20 true (some 3), .w 0 .close, .w 0 (.open_ 10 true true (some 3))] ∧
    x.os.tab 3 = some ⟨.env 0, 20, true, false⟩ := by
  have r0 : Reach Any _ _ := .init
  have r1 := Reach.call _ _ _ (.w 0 (.open_ 10 true true (some 3))) _ r0 trivial rfl
  have r2 := Reach.call _ _ _ (.w 0 .close) _ r1 trivial rfl
  have r3 := Reach.call _ _ _ (.envOpen 0 20 true (some 3)) _ r2 trivial rfl
  have r4 := Reach.call _ _ _ (.w 0 .flush) _ r3 trivial rfl
  exact ⟨_, _, r4, rfl, rfl⟩

/-- **C107 is false of the code** for a writer that was never opened: `flush`, as called at the end of the work of a
recorder that was started without a configuration (RecorderModel.hpp l.111), reads the unassigned `m_fd`; so does
`close`. -/
theorem C107_flush_unopened_counterexample :
    exec World.init (.w 0 .flush) = .ub .deadObject ∧ exec World.init (.w 0 .close) = .ub .deadObject := ⟨rfl, rfl⟩

/-- A reader that is open cannot be opened on another file: the call throws `std::logic_error` (not the documented
exceptions) and the reader stays on the old file. -/
theorem C107_reader_reopen_counterexample : ∃ t x, Reach Careful t x ∧
    t = [(.r 0 (.open_ 13 true (some 4)), .threw), (.r 0 (.open_ 12 true (some 3)), .done)] ∧ rWant 0 t = some 12 ∧
    x.os.tab 4 = none := by
  have r0 : Reach Careful _ _ := .init
  have r1 := Reach.call _ _ _ (.r 0 (.open_ 12 true (some 3))) _ r0 trivial rfl
  have r2 := Reach.call _ _ _ (.r 0 (.open_ 13 true (some 4))) _ r1 trivial rfl
  exact ⟨_, _, r2, rfl, rfl, rfl⟩

end Verif.Fd
