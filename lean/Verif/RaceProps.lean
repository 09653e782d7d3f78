import Verif.RaceModel
/- Property C90: shared members are not accessed by two threads at the same time. -/
namespace Verif.Race
open Act

/-! ### Specification -/

/-- The member an action accesses without synchronisation of its own, and whether it writes. -/
def access : Act → Option (Loc × Bool)
  | .read x => some (x, false)
  | .write x => some (x, true)
  | _ => none

/-- Thread `t` is about to access the member. -/
def About (s : St) (t : Th) (x : Loc) (w : Bool) : Prop :=
  ∃ a r, s.todo t = a :: r ∧ access a = some (x, w)

/-- A data race: one thread writes a member while another one accesses it. -/
def DataRace (s : St) (t u : Th) (x : Loc) (w : Bool) : Prop := t ≠ u ∧ About s t x true ∧ About s u x w

/-- The accesses that are not excluded: `t` writes, `u` writes (`w`) or reads. -/
def Unprotected (t u : Cls) (x : Loc) (w : Bool) : Prop :=
  -- the length of the waiting list, read by monitoring and by the loop of the waiting requests
  (x = .waiting ∧ w = false ∧ ((t = .pool ∧ (u = .mon ∨ u = .waiter)) ∨ (t = .waiter ∧ u = .mon))) ∨
  -- the error registry, asked by requests
  (x = .errors ∧ w = false ∧ u = .pool ∧ t = .consumer) ∨
  -- the TP handler and whether there is one, used by monitoring during conf
  ((x = .tph ∨ x = .enabled) ∧ w = false ∧ t = .cmd ∧ u = .mon) ∨
  -- the time of the last report, set at start
  ((∃ i, x = .t0 i) ∧ ((t = .cmd ∧ u = .mon) ∨ (t = .mon ∧ u = .cmd ∧ w = true)))

/-! ### The locking discipline -/

/-- Where a thread is with respect to cleanups: counted as a running request, cleaning up, or neither. -/
inductive Mode where
  | out | inside | excl
  deriving DecidableEq

/-- Which thread may access a member, given the locks it holds and, for commands, the threads that have work. -/
def allowed (alive : Cls → Bool) (c : Cls) (held : Lock → Bool) (m : Mode) : Loc → Bool → Bool
  | .waiting, true => (c == .pool || c == .waiter) && held .waitq
  | .waiting, false => c == .waiter || c == .mon
  | .pool, true => c == .cmd && !alive .waiter && !alive .requester && !alive .syncer
  | .pool, false => c == .cmd || c == .waiter || c == .requester || c == .syncer
  | .opened, _ => c == .cmd
  | .writer, _ => (c == .cmd && !alive .recorder) || c == .recorder
  | .t0 _, true => c == .cmd || c == .mon
  | .t0 _, false => c == .mon
  | .errors, true => (c == .consumer || (c == .cleaner && m == .excl)) && held .err
  | .errors, false => c == .pool && m == .inside
  | .tph, true => c == .cmd && !alive .post
  | .tph, false => c == .cmd || c == .mon || c == .post
  | .enabled, true => c == .cmd
  | .enabled, false => c == .cmd || c == .mon
  | .config, true => c == .cmd && !alive .pool && !alive .waiter && !alive .cleaner && !alive .recorder
      && !alive .consumer && !alive .requester && !alive .syncer && !alive .post
  | .config, false => c != .mon
  | .check, _ => (c == .cmd && !alive .consumer) || c == .consumer
  | .finder, _ => (c == .cmd && !alive .post) || c == .post

/-- The rest of a function keeps to the discipline and ends without locks. -/
def chk (c : Cls) : (Cls → Bool) → (Lock → Bool) → Mode → List Act → Bool
  | _, held, m, [] => !held .cv && !held .waitq && !held .err && m == .out
  | alive, held, m, .lock l :: r => !held l && chk c alive (upd held l true) m r
  | alive, held, m, .unlock l :: r =>
    held l && chk c alive (upd held l false) (if l = .cv ∧ m = .excl then .out else m) r
  | alive, held, m, .waitOpen :: r => held .cv && m == .out && chk c alive held m r
  | alive, held, m, .waitIdle :: r => held .cv && m == .out && chk c alive held .excl r
  | alive, held, m, .inc :: r => held .cv && m == .out && chk c alive held .inside r
  | alive, held, m, .dec :: r => held .cv && m == .inside && chk c alive held .out r
  | alive, held, m, .claim :: r => chk c alive held m r
  | alive, held, m, .release :: r => chk c alive held m r
  | alive, held, m, .read x :: r => allowed alive c held m x false && chk c alive held m r
  | alive, held, m, .write x :: r => allowed alive c held m x true && chk c alive held m r
  | alive, held, m, .atomic :: r => chk c alive held m r
  | alive, held, m, .spawn d :: r => c == .cmd && chk c (upd alive d true) held m r
  | alive, held, m, .join d :: r => c == .cmd && chk c (upd alive d false) held m r

theorem upd_same {α β : Type} [DecidableEq α] (f : α → β) (a : α) (b : β) : upd f a b a = b := by
  unfold upd; rw [if_pos rfl]

theorem upd_ne {α β : Type} [DecidableEq α] (f : α → β) {a x : α} (b : β) (h : x ≠ a) : upd f a b x = f x := by
  unfold upd; rw [if_neg h]

theorem upd_self {α β : Type} [DecidableEq α] (f : α → β) (a : α) (b : β) (h : f a = b) : upd f a b = f := by
  funext x
  unfold upd
  split
  · rename_i e; rw [e, h]
  · rfl

theorem upd_upd {α β : Type} [DecidableEq α] (f : α → β) (a : α) (b c : β) : upd (upd f a b) a c = upd f a c := by
  funext x
  unfold upd
  split <;> rfl

theorem allowed_alive {c : Cls} (h : c ≠ .cmd) (al al' : Cls → Bool) (held : Lock → Bool) (m : Mode) (x : Loc)
    (w : Bool) : allowed al c held m x w = allowed al' c held m x w := by
  cases c <;> first | exact absurd rfl h | (cases x <;> cases w <;> rfl)

theorem chk_alive {c : Cls} (h : c ≠ .cmd) (al al' : Cls → Bool) (l : List Act) :
    ∀ held m, chk c al held m l = chk c al' held m l := by
  have hc : (c == Cls.cmd) = false := by simpa using h
  induction l with
  | nil => intro held m; rfl
  | cons a r ih =>
    intro held m
    cases a <;> simp only [chk, ih, allowed_alive h al al', hc, Bool.false_and]

/-! ### Every function keeps to the discipline -/

def none' : Lock → Bool := fun _ => false

theorem chk_append (c : Cls) (al : Cls → Bool) (held : Lock → Bool) (m : Mode) (blk r : List Act)
    (h : ∀ r, chk c al held m (blk ++ r) = chk c al held m r) (n : Nat) :
    chk c al held m ((List.replicate n blk).flatten ++ r) = chk c al held m r := by
  induction n with
  | zero => rfl
  | succ n ih => rw [List.replicate_succ, List.flatten_cons, List.append_assoc, h, ih]

theorem chk_pass (al : Cls → Bool) (es : List (List Act)) (h : ∀ e ∈ es, e = reissue ∨ e = giveUp ∨ e = keep) :
    chk .waiter al none' .out (pass es) = true := by
  have body : ∀ es : List (List Act), (∀ e ∈ es, e = reissue ∨ e = giveUp ∨ e = keep) →
      chk .waiter al (upd none' .waitq true) .out (es.flatten ++ [unlock .waitq]) = true := by
    intro es
    induction es with
    | nil => intro _; rfl
    | cons e es ih =>
      intro h
      have ih := ih fun e he => h e (List.mem_cons_of_mem _ he)
      rw [List.flatten_cons, List.append_assoc]
      rcases h e (by simp) with rfl | rfl | rfl <;> exact ih
  exact body es h

theorem chk_record (al : Cls → Bool) (n : Nat) : chk .recorder al none' .out (recordRound n) = true := by
  have e : ∀ l, chk .recorder al none' .out ([atomic] ++ enter ++ leave ++ l) = chk .recorder al none' .out l := by
    intro l
    show chk .recorder al (upd (upd (upd (upd none' .cv true) .cv false) .cv true) .cv false) .out l = _
    congr 1
    funext x; cases x <;> rfl
  unfold recordRound
  rw [e, ← List.append_nil (List.replicate n _).flatten, chk_append _ _ _ _ _ _ (fun r => rfl)]
  rfl

theorem chk_round {c : Cls} {r : List Act} (h : Round c r) (al : Cls → Bool) : chk c al none' .out r = true := by
  cases h with
  | pass es h => exact chk_pass al es h
  | recordRound n => exact chk_record al n
  | _ => rfl

theorem chk_stop (al : Cls → Bool) : chk .cmd al none' .out stop = true := by
  simp [stop, chk, allowed, upd, none']

theorem chk_conf (al : Cls → Bool) (h : ∀ c, c ≠ .cmd → c ≠ .mon → al c = false) :
    chk .cmd al none' .out conf = true := by
  have := fun c => h c
  simp [conf, chk, allowed, none', h]

theorem chk_start (al : Cls → Bool) (h : ∀ c, c ≠ .cmd → c ≠ .mon → al c = false) :
    chk .cmd al none' .out start = true := by
  simp [start, chk, allowed, none', upd, h]

/-! ### Invariant -/

/-- The locks a thread holds. -/
def held (ow : Lock → Option Th) (t : Th) : Lock → Bool := fun l => decide (ow l = some t)

structure Inv (m : Th → Mode) (s : St) : Prop where
  ok : ∀ t, chk t.cls s.alive (held s.owner t) (m t) (s.todo t) = true
  live : ∀ t, s.todo t ≠ [] → t.cls = .cmd ∨ t.cls = .mon ∨ s.alive t.cls = true
  one : ∀ t, s.todo t ≠ [] → t.cls = .pool ∨ t.idx = 0
  count : ∃ L : List Th, L.Nodup ∧ L.length = s.running ∧ ∀ t, t ∈ L ↔ m t = .inside
  excl : ∀ t, m t = .excl → held s.owner t .cv = true ∧ s.running = 0

theorem Inv.run {m : Th → Mode} {s : St} (h : Inv m s) (b : Bool) : Inv m { s with inRun := b } :=
  ⟨h.ok, h.live, h.one, h.count, h.excl⟩

theorem held_none {s : St} {m : Th → Mode} {t : Th} (h : chk t.cls s.alive (held s.owner t) (m t) [] = true) :
    held s.owner t = none' ∧ m t = .out := by
  have : (((!held s.owner t .cv) = true ∧ (!held s.owner t .waitq) = true) ∧ (!held s.owner t .err) = true) ∧
      m t = .out := by
    simpa [chk] using h
  refine ⟨funext fun l => ?_, this.2⟩
  cases l
  · simpa [none'] using this.1.1.1
  · simpa [none'] using this.1.1.2
  · simpa [none'] using this.1.2

theorem begin_inv {s : St} {m : Th → Mode} (h : Inv m s) (t : Th) (r : List Act) (ht : s.todo t = [])
    (hr : chk t.cls s.alive none' .out r = true) (hl : t.cls = .cmd ∨ t.cls = .mon ∨ s.alive t.cls = true)
    (hi : t.cls = .pool ∨ t.idx = 0) : Inv m { s with todo := upd s.todo t r } := by
  refine ⟨fun u => ?_, fun u hu => ?_, fun u hu => ?_, h.count, h.excl⟩
  · by_cases e : u = t
    · subst e
      have := h.ok u
      rw [ht] at this
      show chk u.cls s.alive (held s.owner u) (m u) (upd s.todo u r u) = true
      rw [(held_none this).1, (held_none this).2, upd_same]; exact hr
    · show chk u.cls s.alive (held s.owner u) (m u) (upd s.todo t r u) = true
      rw [upd_ne _ _ e]; exact h.ok u
  · by_cases e : u = t
    · subst e; exact hl
    · exact h.live u (by rwa [show ({ s with todo := upd s.todo t r } : St).todo u = s.todo u from upd_ne _ _ e] at hu)
  · by_cases e : u = t
    · subst e; exact hi
    · exact h.one u (by rwa [show ({ s with todo := upd s.todo t r } : St).todo u = s.todo u from upd_ne _ _ e] at hu)

/-- A step of thread `t` that changes owners, its own list, its mode and the number of running requests. -/
theorem step_inv {s : St} {m : Th → Mode} (h : Inv m s) (t : Th) (a : Act) (r r' : List Act) (ow : Lock → Option Th)
    (mt : Mode) (k : Nat) (cl : Bool)
    (ht : s.todo t = a :: r) (hme : chk t.cls s.alive (held ow t) mt r' = true)
    (hoth : ∀ u, u ≠ t → held ow u = held s.owner u)
    (hcount : ∃ L : List Th, L.Nodup ∧ L.length = k ∧ ∀ u, u ∈ L ↔ upd m t mt u = .inside)
    (hexcl : ∀ u, upd m t mt u = .excl → held ow u .cv = true ∧ k = 0) :
    Inv (upd m t mt) ⟨ow, upd s.todo t r', s.alive, k, cl, s.inRun⟩ := by
  have hne : s.todo t ≠ [] := by rw [ht]; simp
  refine ⟨fun u => ?_, fun u hu => ?_, fun u hu => ?_, hcount, hexcl⟩
  · by_cases e : u = t
    · subst e
      show chk u.cls s.alive (held ow u) (upd m u mt u) (upd s.todo u r' u) = true
      rw [upd_same, upd_same]; exact hme
    · show chk u.cls s.alive (held ow u) (upd m t mt u) (upd s.todo t r' u) = true
      rw [upd_ne _ _ e, upd_ne _ _ e, hoth u e]; exact h.ok u
  · by_cases e : u = t
    · subst e; exact h.live u hne
    · exact h.live u (by
        rwa [show (⟨ow, upd s.todo t r', s.alive, k, cl, s.inRun⟩ : St).todo u = s.todo u from upd_ne _ _ e] at hu)
  · by_cases e : u = t
    · subst e; exact h.one u hne
    · exact h.one u (by
        rwa [show (⟨ow, upd s.todo t r', s.alive, k, cl, s.inRun⟩ : St).todo u = s.todo u from upd_ne _ _ e] at hu)

/-- The same when mode and number stay. -/
theorem step_inv' {s : St} {m : Th → Mode} (h : Inv m s) (t : Th) (a : Act) (r r' : List Act)
    (ow : Lock → Option Th) (cl : Bool)
    (ht : s.todo t = a :: r) (hme : chk t.cls s.alive (held ow t) (m t) r' = true)
    (hoth : ∀ u, u ≠ t → held ow u = held s.owner u)
    (hcv : m t = .excl → held ow t .cv = true) :
    Inv m ⟨ow, upd s.todo t r', s.alive, s.running, cl, s.inRun⟩ := by
  have := step_inv h t a r r' ow (m t) s.running cl ht hme hoth (by rw [upd_self _ _ _ rfl]; exact h.count)
    (by
      rw [upd_self _ _ _ rfl]
      intro u hu
      refine ⟨?_, (h.excl u hu).2⟩
      by_cases e : u = t
      · subst e; exact hcv hu
      · rw [hoth u e]; exact (h.excl u hu).1)
  rwa [upd_self _ _ _ rfl] at this

theorem held_lock (ow : Lock → Option Th) (t : Th) (l : Lock) :
    held (upd ow l (some t)) t = upd (held ow t) l true := by
  funext x
  unfold held upd
  by_cases e : x = l
  · simp [e]
  · simp [e]

theorem held_free (ow : Lock → Option Th) (t : Th) (l : Lock) :
    held (upd ow l none) t = upd (held ow t) l false := by
  funext x
  unfold held upd
  by_cases e : x = l
  · simp [e]
  · simp [e]

theorem held_other {ow : Lock → Option Th} {t u : Th} (l : Lock) (hu : u ≠ t)
    (ho : ow l = none ∨ ow l = some t) (v : Option Th) (hv : v = none ∨ v = some t) :
    held (upd ow l v) u = held ow u := by
  funext x
  unfold held upd
  by_cases e : x = l
  · subst e
    rcases ho with ho | ho <;> rcases hv with rfl | rfl <;> simp [ho, Ne.symm hu]
  · simp [e]

theorem owner_of_held {ow : Lock → Option Th} {t : Th} {l : Lock} (h : held ow t l = true) : ow l = some t := by
  simpa [held] using h

/-- Two threads cannot hold the same lock. -/
theorem held_unique {ow : Lock → Option Th} {t u : Th} {l : Lock} (h : held ow t l = true) (h' : held ow u l = true) :
    t = u := by
  have a := owner_of_held h
  rw [owner_of_held h'] at a
  injection a with a
  exact a.symm

theorem sleep_inv {s : St} {m : Th → Mode} (h : Inv m s) (t : Th) (a : Act) (r : List Act) (hto : s.todo t = a :: r)
    (hcv : held s.owner t .cv = true) (hm : m t = .out)
    (hc : chk t.cls s.alive (held s.owner t) .out (a :: r) = true) :
    Inv m { s with owner := upd s.owner .cv none, todo := upd s.todo t (Act.lock .cv :: a :: r) } := by
  refine step_inv' h t _ r _ _ s.cleaning hto ?_
    (fun u hu => held_other .cv hu (Or.inr (owner_of_held hcv)) none (Or.inl rfl)) (fun e => by rw [hm] at e; cases e)
  rw [held_free, hm]
  show (!upd (held s.owner t) .cv false .cv &&
    chk t.cls s.alive (upd (upd (held s.owner t) .cv false) .cv true) .out (a :: r)) = true
  rw [upd_same, upd_upd, upd_self _ _ _ hcv, hc]
  rfl

/-- Commands that change which threads have work. -/
theorem work_inv {s : St} {m : Th → Mode} (h : Inv m s) (t : Th) (a : Act) (c : Cls) (b : Bool) (r : List Act)
    (hto : s.todo t = a :: r)
    (o : t.cls = .cmd ∧ chk t.cls (upd s.alive c b) (held s.owner t) (m t) r = true)
    (hd : b = false → ∀ i, s.todo ⟨c, i⟩ = []) :
    Inv m { s with todo := upd s.todo t r, alive := upd s.alive c b } := by
  have hidx : t.idx = 0 := by
    rcases h.one t (by rw [hto]; simp) with e | e
    · rw [o.1] at e; cases e
    · exact e
  have td : ∀ u, u ≠ t → ({ s with todo := upd s.todo t r, alive := upd s.alive c b } : St).todo u = s.todo u :=
    fun u e => upd_ne _ _ e
  refine ⟨fun u => ?_, fun u hu => ?_, fun u hu => ?_, h.count, h.excl⟩
  · by_cases e : u = t
    · subst e
      show chk u.cls (upd s.alive c b) (held s.owner u) (m u) (upd s.todo u r u) = true
      rw [upd_same]; exact o.2
    · show chk u.cls (upd s.alive c b) (held s.owner u) (m u) (upd s.todo t r u) = true
      rw [upd_ne _ _ e]
      by_cases hc : u.cls = .cmd
      · cases hs : s.todo u with
        | nil =>
          have := h.ok u
          rw [hs] at this
          exact this
        | cons b q =>
          have : u.idx = 0 := by
            rcases h.one u (by rw [hs]; simp) with e' | e'
            · rw [hc] at e'; cases e'
            · exact e'
          exfalso
          apply e
          cases u; cases t
          simp_all
      · rw [chk_alive hc _ s.alive]; exact h.ok u
  · by_cases e : u = t
    · subst e; exact Or.inl o.1
    · have hu' : s.todo u ≠ [] := by rwa [td u e] at hu
      rcases h.live u hu' with q | q | q
      · exact Or.inl q
      · exact Or.inr (Or.inl q)
      · refine Or.inr (Or.inr ?_)
        show upd s.alive c b u.cls = true
        cases b with
        | true =>
          unfold upd
          split
          · rfl
          · exact q
        | false =>
          rw [upd_ne _ _ (fun e' => hu' ?_)]
          · exact q
          · cases u
            simp only at e'
            subst e'
            exact hd rfl _
  · by_cases e : u = t
    · subst e; exact Or.inr hidx
    · exact h.one u (by rwa [td u e] at hu)

/-- Which threads have work after the rest of a command. -/
def final (al : Cls → Bool) : List Act → Cls → Bool
  | [] => al
  | .spawn c :: r => final (upd al c true) r
  | .join c :: r => final (upd al c false) r
  | _ :: r => final al r

/-- Between runs no thread has work, once the last command is done. -/
def Phase (s : St) : Prop := s.inRun = false → ∀ c, c ≠ .cmd → c ≠ .mon →
  final s.alive (s.todo ⟨.cmd, 0⟩) c = false

/-- A step that changes neither run control's state nor which threads have work. -/
theorem phase_same {s : St} (h : Phase s) (t : Th) (a : Act) (r r' : List Act) (ow : Lock → Option Th) (k : Nat) (cl : Bool)
    (ht : s.todo t = a :: r) (hf : ∀ al, final al r' = final al (a :: r)) :
    Phase ⟨ow, upd s.todo t r', s.alive, k, cl, s.inRun⟩ := by
  intro hp c n1 n2
  have := h hp c n1 n2
  show final s.alive (upd s.todo t r' ⟨.cmd, 0⟩) c = false
  by_cases e : t = ⟨.cmd, 0⟩
  · subst e
    rw [upd_same, hf, ← ht]; exact this
  · rw [upd_ne _ _ (Ne.symm e)]; exact this

theorem phase_round {s : St} (h : Phase s) (t : Th) (r : List Act) (hc : t.cls ≠ .cmd) :
    Phase { s with todo := upd s.todo t r } := by
  intro hp c n1 n2
  show final s.alive (upd s.todo t r ⟨.cmd, 0⟩) c = false
  rw [upd_ne _ _ (fun e => hc (by rw [← e]))]
  exact h hp c n1 n2

theorem phase_step {s s' : St} {m : Th → Mode} (hi : Inv m s) (h : Phase s) (st : Step s s') : Phase s' := by
  have cmd : ∀ t a r c, s.todo t = a :: r → (a = .spawn c ∨ a = .join c) → t = ⟨.cmd, 0⟩ := by
    intro t a r c ht ha
    have o := hi.ok t
    have i := hi.one t (by rw [ht]; simp)
    rw [ht] at o
    have hc : t.cls = .cmd := by
      rcases ha with rfl | rfl <;> simp only [chk, Bool.and_eq_true, beq_iff_eq] at o <;> exact o.1
    rcases i with i | i
    · rw [hc] at i; cases i
    · cases t; simp_all
  cases st with
  | round t r hr hi' ha ht => exact phase_round h t r (by rintro e; rw [e] at hr; cases hr)
  | monitor ht => exact phase_round h _ _ (by decide)
  | conf hp ht =>
    intro _ c n1 n2
    have := h hp c n1 n2
    rw [ht] at this
    exact this
  | start hp ht => intro hp'; cases hp'
  | stop hp ht =>
    intro _ c n1 n2
    show final s.alive (upd s.todo ⟨.cmd, 0⟩ stop ⟨.cmd, 0⟩) c = false
    rw [upd_same]
    show upd (upd (upd (upd (upd (upd (upd (upd s.alive .recorder false) .cleaner false) .waiter false) .pool false)
      .syncer false) .consumer false) .requester false) .post false c = false
    cases c <;> first | rfl | exact absurd rfl n1 | exact absurd rfl n2
  | record r hr hp ht => intro hp'; rw [show s.inRun = true from hp] at hp'; cases hp'
  | lock t l r hto hf => exact phase_same h t _ r r _ _ _ hto fun _ => rfl
  | unlock t l r hto => exact phase_same h t _ r r _ _ _ hto fun _ => rfl
  | openDone t r hto hc => exact phase_same h t _ r r _ _ _ hto fun _ => rfl
  | openSleep t r hto hc => exact phase_same h t _ r _ _ _ _ hto fun _ => rfl
  | idleDone t r hto hc => exact phase_same h t _ r r _ _ _ hto fun _ => rfl
  | idleSleep t r hto hc => exact phase_same h t _ r _ _ _ _ hto fun _ => rfl
  | inc t r hto => exact phase_same h t _ r r _ _ _ hto fun _ => rfl
  | dec t r hto => exact phase_same h t _ r r _ _ _ hto fun _ => rfl
  | claim t r hto hc => exact phase_same h t _ r r _ _ _ hto fun _ => rfl
  | release t r hto => exact phase_same h t _ r r _ _ _ hto fun _ => rfl
  | access t a r hto ha =>
    refine phase_same h t _ r r _ _ _ hto fun _ => ?_
    rcases ha with rfl | ⟨x, rfl | rfl⟩ <;> rfl
  | spawn t c r hto =>
    have e := cmd t _ r c hto (.inl rfl)
    subst e
    intro hp c' n1 n2
    have := h hp c' n1 n2
    rw [hto] at this
    show final (upd s.alive c true) (upd s.todo ⟨.cmd, 0⟩ r ⟨.cmd, 0⟩) c' = false
    rw [upd_same]; exact this
  | join t c r hto hd =>
    have e := cmd t _ r c hto (.inr rfl)
    subst e
    intro hp c' n1 n2
    have := h hp c' n1 n2
    rw [hto] at this
    show final (upd s.alive c false) (upd s.todo ⟨.cmd, 0⟩ r ⟨.cmd, 0⟩) c' = false
    rw [upd_same]; exact this

theorem inv_step {s s' : St} {m : Th → Mode} (h : Inv m s) (hph : Phase s) (st : Step s s') : ∃ m', Inv m' s' := by
  cases st with
  | round t r hr hi ha ht => exact ⟨m, begin_inv h t r ht (chk_round hr _) (Or.inr (Or.inr ha)) hi⟩
  | monitor ht =>
    exact ⟨m, begin_inv h ⟨.mon, 0⟩ getInfo ht rfl (Or.inr (Or.inl rfl)) (Or.inr rfl)⟩
  | conf hp ht =>
    have e : ∀ c, c ≠ .cmd → c ≠ .mon → s.alive c = false := fun c n1 n2 => by
      have := hph hp c n1 n2
      rwa [ht] at this
    exact ⟨m, begin_inv h ⟨.cmd, 0⟩ conf ht (chk_conf _ e) (Or.inl rfl) (Or.inr rfl)⟩
  | start hp ht =>
    have e : ∀ c, c ≠ .cmd → c ≠ .mon → s.alive c = false := fun c n1 n2 => by
      have := hph hp c n1 n2
      rwa [ht] at this
    exact ⟨m, (begin_inv h ⟨.cmd, 0⟩ start ht (chk_start _ e) (Or.inl rfl) (Or.inr rfl)).run true⟩
  | stop hp ht => exact ⟨m, (begin_inv h ⟨.cmd, 0⟩ stop ht (chk_stop _) (Or.inl rfl) (Or.inr rfl)).run false⟩
  | record r hr hp ht =>
    refine ⟨m, begin_inv h ⟨.cmd, 0⟩ r ht ?_ (Or.inl rfl) (Or.inr rfl)⟩
    rcases hr with rfl | rfl | rfl <;> rfl
  | lock t l r hto hf =>
    have o := h.ok t
    rw [hto] at o
    have o := Bool.and_eq_true_iff.1 o
    refine ⟨m, step_inv' h t _ r r _ s.cleaning hto (by rw [held_lock]; exact o.2)
      (fun u hu => held_other l hu (Or.inl hf) _ (Or.inr rfl)) (fun e => ?_)⟩
    rw [held_lock]
    have := (h.excl t e).1
    unfold upd
    split
    · rfl
    · exact this
  | unlock t l r hto =>
    have o := h.ok t
    rw [hto] at o
    have o := Bool.and_eq_true_iff.1 o
    have oth : ∀ u, u ≠ t → held (upd s.owner l none) u = held s.owner u :=
      fun u hu => held_other l hu (Or.inr (owner_of_held o.1)) none (Or.inl rfl)
    by_cases he : l = .cv ∧ m t = .excl
    · have o2 : chk t.cls s.alive (upd (held s.owner t) l false) .out r = true := by
        have := o.2; rwa [if_pos he] at this
      refine ⟨upd m t .out, step_inv h t _ r r _ .out s.running s.cleaning hto (by rw [held_free]; exact o2) oth ?_ ?_⟩
      · obtain ⟨L, h1, h2, h3⟩ := h.count
        refine ⟨L, h1, h2, fun u => ?_⟩
        rw [h3]
        by_cases e : u = t
        · subst e; rw [upd_same, he.2]; exact ⟨(fun e => by cases e), (fun e => by cases e)⟩
        · rw [upd_ne _ _ e]
      · intro u hu
        by_cases e : u = t
        · subst e; rw [upd_same] at hu; cases hu
        · rw [upd_ne _ _ e] at hu
          rw [oth u e]
          exact h.excl u hu
    · have o2 : chk t.cls s.alive (upd (held s.owner t) l false) (m t) r = true := by
        have := o.2; rwa [if_neg he] at this
      refine ⟨m, step_inv' h t _ r r _ s.cleaning hto (by rw [held_free]; exact o2) oth (fun e => ?_)⟩
      rw [held_free, upd_ne _ _ (fun e' => he ⟨e'.symm, e⟩)]
      exact (h.excl t e).1
  | openDone t r hto hc =>
    have o := h.ok t
    rw [hto] at o
    have o := Bool.and_eq_true_iff.1 o
    exact ⟨m, step_inv' h t _ r r s.owner s.cleaning hto o.2 (fun _ _ => rfl) (fun e => (h.excl t e).1)⟩
  | openSleep t r hto hc =>
    have o := h.ok t
    rw [hto] at o
    have o1 := Bool.and_eq_true_iff.1 (Bool.and_eq_true_iff.1 o).1
    have hm : m t = .out := by simpa using o1.2
    exact ⟨m, sleep_inv h t _ r hto o1.1 hm (by rw [hm] at o; exact o)⟩
  | idleDone t r hto hc =>
    have o := h.ok t
    rw [hto] at o
    have o := Bool.and_eq_true_iff.1 o
    have o1 := Bool.and_eq_true_iff.1 o.1
    have hm : m t = .out := by simpa using o1.2
    refine ⟨upd m t .excl, step_inv h t _ r r s.owner .excl s.running s.cleaning hto o.2 (fun _ _ => rfl) ?_ ?_⟩
    · obtain ⟨L, h1, h2, h3⟩ := h.count
      refine ⟨L, h1, h2, fun u => ?_⟩
      rw [h3]
      by_cases e : u = t
      · subst e; rw [upd_same, hm]; exact ⟨(fun e => by cases e), (fun e => by cases e)⟩
      · rw [upd_ne _ _ e]
    · intro u hu
      by_cases e : u = t
      · subst e; exact ⟨o1.1, hc⟩
      · rw [upd_ne _ _ e] at hu
        exact h.excl u hu
  | idleSleep t r hto hc =>
    have o := h.ok t
    rw [hto] at o
    have o1 := Bool.and_eq_true_iff.1 (Bool.and_eq_true_iff.1 o).1
    have hm : m t = .out := by simpa using o1.2
    exact ⟨m, sleep_inv h t _ r hto o1.1 hm (by rw [hm] at o; exact o)⟩
  | inc t r hto =>
    have o := h.ok t
    rw [hto] at o
    have o := Bool.and_eq_true_iff.1 o
    have o1 := Bool.and_eq_true_iff.1 o.1
    have hm : m t = .out := by simpa using o1.2
    refine ⟨upd m t .inside, step_inv h t _ r r s.owner .inside (s.running + 1) s.cleaning hto o.2 (fun _ _ => rfl) ?_ ?_⟩
    · obtain ⟨L, h1, h2, h3⟩ := h.count
      refine ⟨t :: L, List.nodup_cons.2 ⟨fun e => ?_, h1⟩, by rw [List.length_cons, h2], fun u => ?_⟩
      · rw [h3, hm] at e; cases e
      · by_cases e : u = t
        · subst e; rw [upd_same]; simp
        · rw [upd_ne _ _ e, List.mem_cons, h3]
          exact ⟨fun q => q.resolve_left e, Or.inr⟩
    · intro u hu
      by_cases e : u = t
      · subst e; rw [upd_same] at hu; cases hu
      · rw [upd_ne _ _ e] at hu
        exact absurd (held_unique (h.excl u hu).1 o1.1) e
  | dec t r hto =>
    have o := h.ok t
    rw [hto] at o
    have o := Bool.and_eq_true_iff.1 o
    have o1 := Bool.and_eq_true_iff.1 o.1
    have hm : m t = .inside := by simpa using o1.2
    refine ⟨upd m t .out, step_inv h t _ r r s.owner .out (s.running - 1) s.cleaning hto o.2 (fun _ _ => rfl) ?_ ?_⟩
    · obtain ⟨L, h1, h2, h3⟩ := h.count
      have ht : t ∈ L := (h3 t).2 hm
      refine ⟨L.erase t, h1.erase t, by rw [List.length_erase_of_mem ht, h2], fun u => ?_⟩
      rw [h1.mem_erase_iff]
      by_cases e : u = t
      · subst e; rw [upd_same]; exact ⟨fun q => absurd rfl q.1, fun q => by cases q⟩
      · rw [upd_ne _ _ e, h3]
        exact ⟨fun q => q.2, fun q => ⟨e, q⟩⟩
    · intro u hu
      by_cases e : u = t
      · subst e; rw [upd_same] at hu; cases hu
      · rw [upd_ne _ _ e] at hu
        exact absurd (held_unique (h.excl u hu).1 o1.1) e
  | claim t r hto hc =>
    have o := h.ok t
    rw [hto] at o
    exact ⟨m, step_inv' h t _ r r s.owner true hto o (fun _ _ => rfl) (fun e => (h.excl t e).1)⟩
  | release t r hto =>
    have o := h.ok t
    rw [hto] at o
    exact ⟨m, step_inv' h t _ r r s.owner false hto o (fun _ _ => rfl) (fun e => (h.excl t e).1)⟩
  | access t a r hto ha =>
    have o := h.ok t
    rw [hto] at o
    have o : chk t.cls s.alive (held s.owner t) (m t) r = true := by
      rcases ha with rfl | ⟨x, rfl | rfl⟩
      · exact o
      · exact (Bool.and_eq_true_iff.1 o).2
      · exact (Bool.and_eq_true_iff.1 o).2
    exact ⟨m, step_inv' h t _ r r s.owner s.cleaning hto o (fun _ _ => rfl) (fun e => (h.excl t e).1)⟩
  | spawn t c r hto =>
    have o := h.ok t
    rw [hto] at o
    have o := Bool.and_eq_true_iff.1 o
    exact ⟨m, work_inv h t _ c true r hto ⟨by simpa using o.1, o.2⟩ (fun e => by cases e)⟩
  | join t c r hto hd =>
    have o := h.ok t
    rw [hto] at o
    have o := Bool.and_eq_true_iff.1 o
    exact ⟨m, work_inv h t _ c false r hto ⟨by simpa using o.1, o.2⟩ (fun _ => hd)⟩

theorem both_reach {s : St} (h : Reach s) : (∃ m, Inv m s) ∧ Phase s := by
  induction h with
  | init =>
    refine ⟨?_, fun _ _ _ _ => rfl⟩
    exact ⟨fun _ => .out, fun _ => rfl, fun _ h => absurd rfl h, fun _ h => absurd rfl h,
      ⟨[], List.nodup_nil, rfl, fun _ => ⟨(fun e => by cases e), (fun e => by cases e)⟩⟩, fun _ e => by cases e⟩
  | step _ st ih => obtain ⟨⟨m, ih⟩, hp⟩ := ih; exact ⟨inv_step ih hp st, phase_step ih hp st⟩

theorem inv_reach {s : St} (h : Reach s) : ∃ m, Inv m s := (both_reach h).1

/-! ### C90 -/

theorem about_allowed {s : St} {m : Th → Mode} (h : Inv m s) {t : Th} {x : Loc} {w : Bool} (ha : About s t x w) :
    allowed s.alive t.cls (held s.owner t) (m t) x w = true := by
  obtain ⟨a, r, e, hx⟩ := ha
  have o := h.ok t
  rw [e] at o
  cases a <;> simp only [access, Option.some.injEq, Prod.mk.injEq, reduceCtorEq] at hx
  · obtain ⟨rfl, rfl⟩ := hx
    exact (Bool.and_eq_true_iff.1 o).1
  · obtain ⟨rfl, rfl⟩ := hx
    exact (Bool.and_eq_true_iff.1 o).1

theorem same_thread {s : St} {m : Th → Mode} (h : Inv m s) {t u : Th} {x : Loc} {w v : Bool} (ha : About s t x w) (hb : About s u x v)
    (hc : t.cls = u.cls) (hp : t.cls ≠ .pool) : t = u := by
  obtain ⟨a, r, e, -⟩ := ha
  obtain ⟨b, q, e', -⟩ := hb
  have h1 := h.one t (by rw [e]; simp)
  have h2 := h.one u (by rw [e']; simp)
  rw [← hc] at h2
  have h1 := h1.resolve_left hp
  have h2 := h2.resolve_left hp
  cases t; cases u
  simp_all

/-- **C90** where it holds: in every state that can occur, a data race is one of the listed ones. In particular there
is none on the settings, on the output file, on the thread pool, on the state of the processing, and none between
two threads that change the waiting list or the error registry. -/
theorem C90_races_partial (s : St) (h : Reach s) (t u : Th) (x : Loc) (w : Bool) (hr : DataRace s t u x w) :
    Unprotected t.cls u.cls x w := by
  obtain ⟨m, inv⟩ := inv_reach h
  obtain ⟨hne, ht, hu⟩ := hr
  have at' := about_allowed inv ht
  have au := about_allowed inv hu
  have liveu : u.cls = .cmd ∨ u.cls = .mon ∨ s.alive u.cls = true := by
    obtain ⟨a, r, e, -⟩ := hu
    exact inv.live u (by rw [e]; simp)
  have livet : t.cls = .cmd ∨ t.cls = .mon ∨ s.alive t.cls = true := by
    obtain ⟨a, r, e, -⟩ := ht
    exact inv.live t (by rw [e]; simp)
  have same : t.cls = u.cls → t.cls = .pool := fun hc =>
    Classical.byContradiction fun hp => hne (same_thread inv ht hu hc hp)
  have excl : ∀ l, held s.owner t l = true → held s.owner u l = true → False := fun l h1 h2 =>
    hne (held_unique h1 h2)
  have modes : m t = .excl → m u = .inside → False := by
    intro h1 h2
    obtain ⟨L, -, l2, l3⟩ := inv.count
    have hm := (l3 u).2 h2
    rw [(inv.excl t h1).2] at l2
    rw [List.length_eq_zero_iff.1 l2] at hm
    cases hm
  generalize t.cls = tc at *
  generalize u.cls = uc at *
  generalize m t = mt at *
  generalize m u = mu at *
  generalize held s.owner t = ht' at *
  generalize held s.owner u = hu' at *
  generalize s.alive = al at *
  clear ht hu hne inv h
  unfold Unprotected
  cases x <;> cases w <;> cases tc <;> simp only [allowed] at at' <;>
    first
    | (exfalso; revert at'; decide)
    | (exfalso; simp at at'; done)
    | (cases uc <;> simp only [allowed] at au <;> simp_all)

/-! ### The listed races occur -/

/-- One action of a thread, if it can be done at once. -/
def act (s : St) (t : Th) : Option St :=
  match s.todo t with
  | [] => none
  | .lock l :: r => if s.owner l = none then some { s with owner := upd s.owner l (some t), todo := upd s.todo t r }
      else none
  | .unlock l :: r => some { s with owner := upd s.owner l none, todo := upd s.todo t r }
  | .waitOpen :: r => if s.cleaning = false then some { s with todo := upd s.todo t r } else none
  | .waitIdle :: r => if s.running = 0 then some { s with todo := upd s.todo t r } else none
  | .inc :: r => some { s with todo := upd s.todo t r, running := s.running + 1 }
  | .dec :: r => some { s with todo := upd s.todo t r, running := s.running - 1 }
  | .claim :: r => if s.cleaning = false then some { s with todo := upd s.todo t r, cleaning := true } else none
  | .release :: r => some { s with todo := upd s.todo t r, cleaning := false }
  | .read _ :: r => some { s with todo := upd s.todo t r }
  | .write _ :: r => some { s with todo := upd s.todo t r }
  | .atomic :: r => some { s with todo := upd s.todo t r }
  | .spawn c :: r => some { s with todo := upd s.todo t r, alive := upd s.alive c true }
  | .join _ :: _ => none

theorem act_step {s s' : St} {t : Th} (h : act s t = some s') : Step s s' := by
  unfold act at h
  split at h
  · cases h
  · split at h
    · injection h with h; subst h
      exact .lock s t _ _ (by assumption) (by assumption)
    · cases h
  · injection h with h; subst h; exact .unlock s t _ _ (by assumption)
  · split at h
    · injection h with h; subst h
      exact .openDone s t _ (by assumption) (by assumption)
    · cases h
  · split at h
    · injection h with h; subst h
      exact .idleDone s t _ (by assumption) (by assumption)
    · cases h
  · injection h with h; subst h; exact .inc s t _ (by assumption)
  · injection h with h; subst h; exact .dec s t _ (by assumption)
  · split at h
    · injection h with h; subst h
      exact .claim s t _ (by assumption) (by assumption)
    · cases h
  · injection h with h; subst h; exact .release s t _ (by assumption)
  · injection h with h; subst h; exact .access s t _ _ (by assumption) (Or.inr ⟨_, Or.inl rfl⟩)
  · injection h with h; subst h; exact .access s t _ _ (by assumption) (Or.inr ⟨_, Or.inr rfl⟩)
  · injection h with h; subst h; exact .access s t _ _ (by assumption) (Or.inl rfl)
  · injection h with h; subst h; exact .spawn s t _ _ (by assumption)
  · cases h

/-- Some actions of one thread. -/
def acts (t : Th) : Nat → St → Option St
  | 0, s => some s
  | n + 1, s => (act s t).bind (acts t n)

theorem acts_reach {t : Th} : ∀ (n : Nat) {s s' : St}, Reach s → acts t n s = some s' → Reach s' := by
  intro n
  induction n with
  | zero => intro s s' h e; injection e with e; subst e; exact h
  | succ n ih =>
    intro s s' h e
    unfold acts at e
    cases ha : act s t with
    | none => rw [ha] at e; cases e
    | some s1 => rw [ha] at e; exact ih (.step h (act_step ha)) e

abbrev cmdTh : Th := ⟨.cmd, 0⟩
abbrev monTh : Th := ⟨.mon, 0⟩

/-- During the run, no function being executed. -/
def running : St := ((acts cmdTh 21 { St.init with todo := upd St.init.todo cmdTh start, inRun := true }).getD St.init)

theorem running_eq : acts cmdTh 21 { St.init with todo := upd St.init.todo cmdTh start, inRun := true } = some running := rfl

theorem running_reach : Reach running :=
  acts_reach 21 (.step .init (.start St.init rfl rfl)) running_eq

/-- Two functions, each executed up to some point. -/
def two (s : St) (t u : Th) (a b : List Act) (n k : Nat) : Option St :=
  (acts t n { s with todo := upd s.todo t a }).bind fun s => acts u k { s with todo := upd s.todo u b }

theorem two_reach {s s' : St} {t u : Th} {a b : List Act} {n k : Nat} (h : Reach s)
    (hs : ∀ s, Reach s → s.todo t = [] → s.alive = running.alive → Reach { s with todo := upd s.todo t a })
    (hs' : ∀ s, Reach s → s.todo u = [] → s.alive = running.alive → Reach { s with todo := upd s.todo u b })
    (ht : s.todo t = []) (hal : s.alive = running.alive)
    (hu : ∀ s1, acts t n { s with todo := upd s.todo t a } = some s1 → s1.todo u = [] ∧ s1.alive = running.alive)
    (e : two s t u a b n k = some s') : Reach s' := by
  unfold two at e
  cases h1 : acts t n { s with todo := upd s.todo t a } with
  | none => rw [h1] at e; cases e
  | some s1 =>
    rw [h1] at e
    obtain ⟨q1, q2⟩ := hu s1 h1
    exact acts_reach k (hs' s1 (acts_reach n (hs s h ht hal) h1) q1 q2) e

theorem by_round {t : Th} {r : List Act} (hr : Round t.cls r) (hi : t.cls = .pool ∨ t.idx = 0)
    (ha : running.alive t.cls = true) (s : St) (h : Reach s) (ht : s.todo t = []) (hal : s.alive = running.alive) :
    Reach { s with todo := upd s.todo t r } := .step h (.round s t r hr hi (by rw [hal]; exact ha) ht)

theorem by_monitor (s : St) (h : Reach s) (ht : s.todo monTh = []) (_ : s.alive = running.alive) :
    Reach { s with todo := upd s.todo monTh getInfo } := .step h (.monitor s ht)

/-- A command that has begun, executed up to some point, then monitoring up to some point. -/
def cmdMon (s : St) (n k : Nat) : Option St :=
  (acts cmdTh n s).bind fun s => acts monTh k { s with todo := upd s.todo monTh getInfo }

theorem cmd_mon {s : St} (h : Reach s) (n k : Nat) {s' : St}
    (hm : ∀ s1, acts cmdTh n s = some s1 → s1.todo monTh = []) (e : cmdMon s n k = some s') : Reach s' := by
  unfold cmdMon at e
  cases h1 : acts cmdTh n s with
  | none => rw [h1] at e; cases e
  | some s1 =>
    rw [h1] at e
    exact acts_reach k (.step (acts_reach n h h1) (.monitor s1 (hm s1 h1))) e

/-- Before the first run: conf or start has begun. -/
def confBegun : St := { St.init with todo := upd St.init.todo cmdTh conf }
def startBegun : St := { St.init with todo := upd St.init.todo cmdTh start, inRun := true }

theorem conf_begun : Reach confBegun := .step .init (.conf St.init rfl rfl)
theorem start_begun : Reach startBegun := .step .init (.start St.init rfl rfl)

theorem fin3 (i : Fin 3) : i = 0 ∨ i = 1 ∨ i = 2 := by revert i; decide

/-- **C90 is false**: each of the listed races occurs. -/
theorem C90_races_counterexample (t u : Cls) (x : Loc) (w : Bool) (h : Unprotected t u x w) :
    ∃ s, Reach s ∧ DataRace s ⟨t, 0⟩ ⟨u, 0⟩ x w := by
  have mk : ∀ (a b : List Act) (n k : Nat) (s' : St) (w : Bool), Round t a → running.alive t = true →
      ((u = .mon ∧ b = getInfo) ∨ (Round u b ∧ running.alive u = true)) → t ≠ u →
      two running ⟨t, 0⟩ ⟨u, 0⟩ a b n k = some s' →
      (∀ s1, acts ⟨t, 0⟩ n { running with todo := upd running.todo ⟨t, 0⟩ a } = some s1 →
        s1.todo ⟨u, 0⟩ = [] ∧ s1.alive = running.alive) →
      About s' ⟨t, 0⟩ x true → About s' ⟨u, 0⟩ x w → ∃ s, Reach s ∧ DataRace s ⟨t, 0⟩ ⟨u, 0⟩ x w := by
    intro a b n k s' w hr hal hb hne e hu h1 h2
    refine ⟨s', two_reach running_reach (by_round hr (Or.inr rfl) hal) ?_ (by cases t <;> rfl) rfl hu e, ?_, h1, h2⟩
    · rcases hb with ⟨rfl, rfl⟩ | ⟨hb, hb'⟩
      · exact by_monitor
      · exact by_round hb (Or.inr rfl) hb'
    · intro e'; injection e' with e' _; exact hne e'
  have init : ∀ (s0 : St) (n k : Nat) (s' : St) (w : Bool) (t u : Th), Reach s0 → cmdMon s0 n k = some s' →
      (∀ s1, acts cmdTh n s0 = some s1 → s1.todo monTh = []) →
      t ≠ u → About s' t x true → About s' u x w → ∃ s, Reach s ∧ DataRace s t u x w :=
    fun s0 n k s' w t u h0 e hm hne h1 h2 => ⟨s', cmd_mon h0 n k hm e, hne, h1, h2⟩
  rcases h with ⟨rfl, rfl, ⟨rfl, rfl | rfl⟩ | ⟨rfl, rfl⟩⟩ | ⟨rfl, rfl, rfl, rfl⟩
      | ⟨rfl | rfl, rfl, rfl, rfl⟩ | ⟨⟨i, rfl⟩, ⟨rfl, rfl⟩ | ⟨rfl, rfl, rfl⟩⟩
  · exact mk parked getInfo 10 5 _ false .parked rfl (Or.inl ⟨rfl, rfl⟩) (by decide) rfl
      (fun s1 e => by injection e with e; subst e; exact ⟨rfl, rfl⟩) ⟨_, _, rfl, rfl⟩ ⟨_, _, rfl, rfl⟩
  · exact mk parked waitCond 10 1 _ false .parked rfl (Or.inr ⟨.waitCond, rfl⟩) (by decide) rfl
      (fun s1 e => by injection e with e; subst e; exact ⟨rfl, rfl⟩) ⟨_, _, rfl, rfl⟩ ⟨_, _, rfl, rfl⟩
  · exact mk (pass [reissue]) getInfo 4 5 _ false (.pass _ (by simp)) rfl (Or.inl ⟨rfl, rfl⟩) (by decide) rfl
      (fun s1 e => by injection e with e; subst e; exact ⟨rfl, rfl⟩) ⟨_, _, rfl, rfl⟩ ⟨_, _, rfl, rfl⟩
  · exact mk consumeGap answered 4 5 _ false .consumeGap rfl (Or.inr ⟨.answered, rfl⟩) (by decide) rfl
      (fun s1 e => by injection e with e; subst e; exact ⟨rfl, rfl⟩) ⟨_, _, rfl, rfl⟩ ⟨_, _, rfl, rfl⟩
  · exact init confBegun 3 9 _ false _ _ conf_begun rfl
      (fun s1 e => by injection e with e; subst e; rfl) (by decide) ⟨_, _, rfl, rfl⟩ ⟨_, _, rfl, rfl⟩
  · exact init confBegun 2 11 _ false _ _ conf_begun rfl
      (fun s1 e => by injection e with e; subst e; rfl) (by decide) ⟨_, _, rfl, rfl⟩ ⟨_, _, rfl, rfl⟩
  · have hi := fin3 i
    rcases hi with rfl | rfl | rfl <;> cases w
    · exact init startBegun 1 1 _ false cmdTh monTh start_begun rfl
        (fun s1 e => by injection e with e; subst e; rfl) (by decide) ⟨_, _, rfl, rfl⟩ ⟨_, _, rfl, rfl⟩
    · exact init startBegun 1 3 _ true cmdTh monTh start_begun rfl
        (fun s1 e => by injection e with e; subst e; rfl) (by decide) ⟨_, _, rfl, rfl⟩ ⟨_, _, rfl, rfl⟩
    · exact init startBegun 11 7 _ false cmdTh monTh start_begun rfl
        (fun s1 e => by injection e with e; subst e; rfl) (by decide) ⟨_, _, rfl, rfl⟩ ⟨_, _, rfl, rfl⟩
    · exact init startBegun 11 8 _ true cmdTh monTh start_begun rfl
        (fun s1 e => by injection e with e; subst e; rfl) (by decide) ⟨_, _, rfl, rfl⟩ ⟨_, _, rfl, rfl⟩
    · exact init startBegun 6 12 _ false cmdTh monTh start_begun rfl
        (fun s1 e => by injection e with e; subst e; rfl) (by decide) ⟨_, _, rfl, rfl⟩ ⟨_, _, rfl, rfl⟩
    · exact init startBegun 6 13 _ true cmdTh monTh start_begun rfl
        (fun s1 e => by injection e with e; subst e; rfl) (by decide) ⟨_, _, rfl, rfl⟩ ⟨_, _, rfl, rfl⟩
  · have hi := fin3 i
    rcases hi with rfl | rfl | rfl
    · exact init startBegun 1 3 _ true monTh cmdTh start_begun rfl
        (fun s1 e => by injection e with e; subst e; rfl) (by decide) ⟨_, _, rfl, rfl⟩ ⟨_, _, rfl, rfl⟩
    · exact init startBegun 11 8 _ true monTh cmdTh start_begun rfl
        (fun s1 e => by injection e with e; subst e; rfl) (by decide) ⟨_, _, rfl, rfl⟩ ⟨_, _, rfl, rfl⟩
    · exact init startBegun 6 13 _ true monTh cmdTh start_begun rfl
        (fun s1 e => by injection e with e; subst e; rfl) (by decide) ⟨_, _, rfl, rfl⟩ ⟨_, _, rfl, rfl⟩

/-- The list is exact: two threads can race in a way if and only if it is listed. -/
theorem C90_races_exact (t u : Cls) (x : Loc) (w : Bool) :
    (∃ s i j, Reach s ∧ DataRace s ⟨t, i⟩ ⟨u, j⟩ x w) ↔ Unprotected t u x w :=
  ⟨fun ⟨s, i, j, h, hr⟩ => C90_races_partial s h ⟨t, i⟩ ⟨u, j⟩ x w hr,
    fun h => let ⟨s, hs, hr⟩ := C90_races_counterexample t u x w h; ⟨s, 0, 0, hs, hr⟩⟩

/-- A concrete case: a cleanup at the point where it removes errors, while a request waits for its end and the consumer
is about to look at a payload. -/
example : ∃ s, Reach s ∧ About s ⟨.cleaner, 0⟩ .errors true ∧ (∃ r, s.todo ⟨.pool, 3⟩ = .lock .cv :: r) ∧
    About s ⟨.consumer, 0⟩ .config false := by
  have h0 := running_reach
  have h1 := acts_reach (t := ⟨.cleaner, 0⟩) 10 (by_round (t := ⟨.cleaner, 0⟩) .cleanup (Or.inr rfl) rfl _ h0 rfl rfl) rfl
  have h2 := by_round (t := ⟨.pool, 3⟩) .answered (Or.inl rfl) rfl _ h1 rfl rfl
  have h3 := acts_reach (t := ⟨.consumer, 0⟩) 1 (by_round (t := ⟨.consumer, 0⟩) .consume (Or.inr rfl) rfl _ h2 rfl rfl) rfl
  exact ⟨_, h3, ⟨_, _, rfl, rfl⟩, ⟨_, rfl⟩, ⟨_, _, rfl, rfl⟩⟩

end Verif.Race
