import Verif.PacLifeModel
import Verif.ListLinkProps
import Verif.CleanupProps
import Mathlib.Data.List.Induction
import Mathlib.Data.List.Perm.Subperm
/-
C126: a PACMAN link makes room by discarding its oldest messages, so that recent messages stay available and a fragment
without error bit carries every message received in its window.
-/
namespace Verif.PacLife
open Verif.DataReq Verif.SkipList Verif.ListLink

variable {P : Type}

theorem insert_sub (ts : P → Nat) (a : P) (l : List P) : l.Sublist (SkipList.insert ts a l).1 := by
  induction l with
  | nil => simp
  | cons b t ih =>
    unfold SkipList.insert
    split
    · exact List.sublist_cons_self _ _
    · split
      · exact List.Sublist.refl _
      · exact ih.cons_cons b

theorem insert_length (ts : P → Nat) (a : P) (l : List P) : (SkipList.insert ts a l).1.length ≤ l.length + 1 := by
  induction l with
  | nil => simp [SkipList.insert]
  | cons b t ih =>
    unfold SkipList.insert
    split
    · simp
    · split
      · simp
      · simpa using ih

theorem dropLast_last {l : List P} {z : P} (h : l.getLast? = some z) : l = l.dropLast ++ [z] := by
  have hne : l ≠ [] := by intro e; simp [e] at h
  have : l.getLast hne = z := by rw [List.getLast?_eq_some_getLast hne] at h; exact Option.some.inj h
  rw [← this, List.dropLast_append_getLast]

/-- Room left by a cleanup that leaves at least `K` payloads. -/
def Room (c : Cfg) (K : Nat) (s : St P) : Prop :=
  match s.clean with
  | .off => True
  | .counting => c.limit < s.l.length
  | .loop n => K + n ≤ s.l.length
  | .pop n => K + n + 1 ≤ s.l.length
  | .ending => K ≤ s.l.length

structure Inv (ts : P → Nat) (c : Cfg) (K : Nat) (s : St P) : Prop where
  sorted : StrictSorted ts s.l
  sub : ∀ p ∈ s.l, p ∈ s.hist
  idle : s.running = false → s.l = [] ∧ s.clean = .off
  room : Room c K s
  missing : s.running = true → ∀ p, FirstWithTime ts s.hist p → p ∉ s.l →
    K ≤ (s.l.filter (fun q => decide (ts q < ts p))).length
  short : s.l.length ≤ s.hist.length
  fresh : s.running = true → s.hist.length ≤ c.limit → s.clean = .off ∧ ∀ p, FirstWithTime ts s.hist p ↔ p ∈ s.l

theorem inv_init (ts : P → Nat) (c : Cfg) (K : Nat) : Inv ts c K (St.init P) :=
  ⟨List.Pairwise.nil, by simp [St.init], fun _ => ⟨rfl, rfl⟩, trivial, by simp [St.init], by simp [St.init],
    by simp [St.init]⟩

theorem pop_one (l : List P) : SkipList.pop l 1 = l.dropLast := rfl

theorem flush_nil (l : List P) : SkipList.flush l = [] := by
  have : ∀ (n : Nat) (l : List P), l.length ≤ n → SkipList.pop l n = [] := by
    intro n
    induction n with
    | zero => intro l h; simpa [SkipList.pop] using h
    | succ n ih => intro l h; exact ih _ (by simp; omega)
  exact this _ _ (by simp [SkipList.occupancy])

theorem inv_clean {ts : P → Nat} {c : Cfg} {K : Nat} (hK : 0 < K) (hp : ∀ n, c.limit < n → K + c.pop n ≤ n) {s : St P}
    (h : Inv ts c K s) (hr : s.running = true) : ∃ s', cleanStep ts c s = .ok s' ∧ Inv ts c K s' := by
  obtain ⟨run, l, next, cl, hist⟩ := s
  simp only at hr
  subst hr
  have hroom := h.room
  have hshort := h.short
  have hidle : ∀ (l' : List P) (cl' : Clean), (true = false → l' = [] ∧ cl' = .off) := by intro _ _ e; cases e
  have hnf : ∀ {P' : Prop}, (cl ≠ .off) → hist.length ≤ c.limit → P' := fun hc hl => absurd (h.fresh rfl hl).1 hc
  cases cl with
  | off =>
    simp only [cleanStep]
    by_cases hl : SkipList.occupancy l > c.limit
    · rw [if_pos hl]
      simp only [SkipList.occupancy] at hl
      exact ⟨_, rfl, h.sorted, h.sub, by simp, hl, h.missing, hshort, fun _ hh => by simp only at hshort hh; omega⟩
    · rw [if_neg hl]
      exact ⟨_, rfl, h⟩
  | counting =>
    refine ⟨_, rfl, h.sorted, h.sub, by simp, ?_, h.missing, hshort, fun _ hh => hnf (by simp) hh⟩
    exact hp _ hroom
  | loop n =>
    cases n with
    | zero => exact ⟨_, rfl, h.sorted, h.sub, by simp, hroom, h.missing, hshort, fun _ hh => hnf (by simp) hh⟩
    | succ n =>
      simp only [Room] at hroom
      cases l with
      | nil => simp at hroom
      | cons a t =>
        simp only [cleanStep, SkipList.front, List.head?_cons]
        by_cases hn : ts a < next
        · rw [if_pos hn]
          exact ⟨_, rfl, h.sorted, h.sub, by simp, hroom, h.missing, hshort, fun _ hh => hnf (by simp) hh⟩
        · rw [if_neg hn]
          refine ⟨_, rfl, h.sorted, h.sub, by simp, ?_, h.missing, hshort, fun _ hh => hnf (by simp) hh⟩
          simp only [Room]; omega
  | pop n =>
    simp only [Room] at hroom
    refine ⟨_, rfl, ?_, ?_, by simp, ?_, ?_, ?_, fun _ hh => hnf (by simp) hh⟩
    · exact h.sorted.sublist (List.dropLast_sublist l)
    · intro p hpl; exact h.sub p (List.dropLast_subset l hpl)
    · simp only [Room, pop_one, List.length_dropLast]; omega
    · intro _ p hf hn
      simp only [pop_one] at hn ⊢
      have hall : K ≤ l.dropLast.length := by simp only [List.length_dropLast]; omega
      have hne : l ≠ [] := by intro e; subst e; simp at hroom
      obtain ⟨_, z, _, hz⟩ := ends hne
      have hsplit := dropLast_last hz
      have hbefore : ∀ q ∈ l.dropLast, ts q < ts z := by
        have hs : StrictSorted ts l := h.sorted
        rw [hsplit] at hs
        intro q hq
        exact (List.pairwise_append.1 hs).2.2 q hq z (by simp)
      have hfull : ts z ≤ ts p → l.dropLast.filter (fun q => decide (ts q < ts p)) = l.dropLast := by
        intro hle
        rw [List.filter_eq_self]
        intro q hq
        have := hbefore q hq
        simp; omega
      by_cases hpl : p ∈ l
      · have : p = z := by
          rw [hsplit] at hpl
          rcases List.mem_append.1 hpl with hpl | hpl
          · exact absurd hpl hn
          · simpa using hpl
        rw [hfull (by rw [this])]
        exact hall
      · have hm := h.missing rfl p hf hpl
        simp only at hm
        by_cases hle : ts z ≤ ts p
        · rw [hfull hle]; exact hall
        · by_cases hz' : ts z < ts p
          · omega
          · rw [hsplit, List.filter_append] at hm
            simpa [hz'] using hm
    · simp only [pop_one, List.length_dropLast]
      simp only at hshort
      omega
  | ending =>
    simp only [Room] at hroom
    cases l with
    | nil => simp at hroom; omega
    | cons a t => exact ⟨_, rfl, h.sorted, h.sub, by simp, trivial, h.missing, hshort, fun _ hh => hnf (by simp) hh⟩

/-- With every message received there is a first one of its time. -/
theorem exists_first (ts : P → Nat) (hist : List P) : ∀ q ∈ hist, ∃ x, FirstWithTime ts hist x ∧ ts x = ts q := by
  induction hist using List.reverseRecOn with
  | nil => intro q hq; simp at hq
  | append_singleton t b ih =>
    intro q hq
    rcases List.mem_append.1 hq with hq | hq
    · obtain ⟨x, hx, e⟩ := ih q hq
      exact ⟨x, (first_snoc ts t b x).2 (Or.inl hx), e⟩
    · simp only [List.mem_singleton] at hq
      subst hq
      by_cases hex : ∀ y ∈ t, ts y ≠ ts q
      · exact ⟨q, (first_snoc ts t q q).2 (Or.inr ⟨rfl, hex⟩), rfl⟩
      · push Not at hex
        obtain ⟨y, hy, ey⟩ := hex
        obtain ⟨x, hx, e⟩ := ih y hy
        exact ⟨x, (first_snoc ts t q x).2 (Or.inl hx), by omega⟩

theorem inv_recv {ts : P → Nat} {c : Cfg} {K : Nat} {s : St P}
    (h : Inv ts c K s) (hr : s.running = true) (a : P) :
    Inv ts c K { s with l := (SkipList.write ts s.l a).1, hist := s.hist ++ [a] } := by
  obtain ⟨i1, i2, i3⟩ := insert_spec ts a s.l h.sorted
  have hsl := insert_sub ts a s.l
  have hlen := hsl.length_le
  have hlen2 := insert_length ts a s.l
  have hshort := h.short
  refine ⟨i1, ?_, by simp [hr], ?_, ?_, ?_, ?_⟩
  · intro p hp
    rcases (i3 p).1 hp with hp | ⟨rfl, -⟩
    · exact List.mem_append_left _ (h.sub p hp)
    · simp
  · have := h.room
    unfold Room at this ⊢
    simp only [SkipList.write]
    split <;> simp_all <;> omega
  · intro _ p hf hn
    simp only [SkipList.write] at hn ⊢
    have hmono := (hsl.filter (fun q => decide (ts q < ts p))).length_le
    rcases (first_snoc ts s.hist a p).1 hf with hf | ⟨rfl, hnew⟩
    · have := h.missing hr p hf (fun hpl => hn (hsl.subset hpl))
      omega
    · exact absurd ((i3 p).2 (Or.inr ⟨rfl, i2.2 (fun b hb => hnew b (h.sub b hb))⟩)) hn
  · simp only [SkipList.write, List.length_append, List.length_cons, List.length_nil]; omega
  · intro _ hl
    simp only [List.length_append, List.length_cons, List.length_nil] at hl
    obtain ⟨f1, f2⟩ := h.fresh hr (by omega)
    refine ⟨f1, fun p => ?_⟩
    simp only [SkipList.write]
    rw [first_snoc, i3 p, f2 p, i2]
    constructor
    · rintro (hp | ⟨rfl, hn⟩)
      · exact Or.inl hp
      · exact Or.inr ⟨rfl, fun b hb => hn b (h.sub b hb)⟩
    · rintro (hp | ⟨rfl, hn⟩)
      · exact Or.inl hp
      · refine Or.inr ⟨rfl, ?_⟩
        intro q hq e
        obtain ⟨x, hx, ex⟩ := exists_first ts _ q hq
        exact hn x ((f2 x).1 hx) (by omega)

theorem inv_step {ts : P → Nat} {c : Cfg} {K : Nat} (hK : 0 < K) (hp : ∀ n, c.limit < n → K + c.pop n ≤ n) {s : St P}
    (h : Inv ts c K s) (a : Act P) : ∃ s', step ts c s a = .ok s' ∧ Inv ts c K s' := by
  cases a with
  | start =>
    simp only [step]
    by_cases hr : s.running = true
    · rw [if_pos hr]; exact ⟨_, rfl, h⟩
    · rw [if_neg hr]
      obtain ⟨e1, e2⟩ := h.idle (by simpa using hr)
      refine ⟨_, rfl, h.sorted, ?_, by simp, ?_, ?_, ?_, ?_⟩
      · intro p hpl; simp only [e1] at hpl; simp at hpl
      · simp only [Room, e2]
      · rintro - p ⟨pre, post, e, -⟩; simp at e
      · simp [e1]
      · rintro - -
        refine ⟨e2, fun p => ⟨?_, ?_⟩⟩
        · rintro ⟨pre, post, e, -⟩; simp at e
        · intro hpl; simp only [e1] at hpl; simp at hpl
  | stop =>
    simp only [step]
    by_cases hr : s.running = true ∧ s.clean = .off
    · rw [if_pos hr]
      refine ⟨_, rfl, ?_⟩
      simp only [flush_nil]
      exact ⟨List.Pairwise.nil, by simp, fun _ => ⟨rfl, hr.2⟩, by simp only [Room, hr.2], by simp, by simp, by simp⟩
    · rw [if_neg hr]; exact ⟨_, rfl, h⟩
  | recv p =>
    simp only [step]
    by_cases hr : s.running = true
    · rw [if_pos hr]; exact ⟨_, rfl, inv_recv h hr p⟩
    · rw [if_neg hr]; exact ⟨_, rfl, h⟩
  | record t => exact ⟨_, rfl, h.sorted, h.sub, h.idle, h.room, h.missing, h.short, h.fresh⟩
  | clean =>
    simp only [step]
    by_cases hr : s.running = true
    · rw [if_pos hr]; exact inv_clean hK hp h hr
    · rw [if_neg hr]; exact ⟨_, rfl, h⟩

theorem inv_run {ts : P → Nat} {c : Cfg} {K : Nat} (hK : 0 < K) (hp : ∀ n, c.limit < n → K + c.pop n ≤ n)
    (as : List (Act P)) : ∀ s : St P, Inv ts c K s → ∃ s', run ts c s as = .ok s' ∧ Inv ts c K s' := by
  induction as with
  | nil => intro s h; exact ⟨s, rfl, h⟩
  | cons a as ih =>
    intro s h
    obtain ⟨s1, e1, h1⟩ := inv_step hK hp h a
    obtain ⟨s2, e2, h2⟩ := ih s1 h1
    exact ⟨s2, by simp only [run, e1, Outcome.bind_ok, e2], h2⟩

theorem inv_of {ts : P → Nat} {c : Cfg} {K : Nat} (hK : 0 < K) (hp : ∀ n, c.limit < n → K + c.pop n ≤ n)
    {as : List (Act P)} {s : St P} (h : run ts c (St.init P) as = .ok s) : Inv ts c K s := by
  obtain ⟨s', e, i⟩ := inv_run hK hp as _ (inv_init ts c K)
  rw [h] at e
  cases e
  exact i

/-! ### What stays -/

/-- **C126 (no crash)** As long as a cleanup is not told to discard everything, no messages, cleanups, recordings and runs crash
the link, messages arriving in the middle of a cleanup included; the buffer is in time order and holds messages of the present run. -/
theorem C126_no_crash (ts : P → Nat) (c : Cfg) (hp : ∀ n, c.limit < n → c.pop n < n) (as : List (Act P)) :
    ∃ s, run ts c (St.init P) as = .ok s ∧ StrictSorted ts s.l ∧ ∀ p ∈ s.l, p ∈ s.hist := by
  obtain ⟨s, e, i⟩ := inv_run (K := 1) (by omega) (fun n hn => by have := hp n hn; omega) as _ (inv_init ts c 1)
  exact ⟨s, e, i.sorted, i.sub⟩

/-- **C126 (the oldest stay)** If every cleanup leaves at least `K` messages, then to the end of the run the buffer holds every
message (the first with its time) to which fewer than `K` of those received are older. -/
theorem C126_oldest_stay (ts : P → Nat) (c : Cfg) (K : Nat) (hK : 0 < K) (hp : ∀ n, c.limit < n → K + c.pop n ≤ n)
    (as : List (Act P)) (s : St P) (h : run ts c (St.init P) as = .ok s) (hr : s.running = true) (p : P)
    (hf : FirstWithTime ts s.hist p) (ho : (s.hist.filter (fun q => decide (ts q < ts p))).length < K) : p ∈ s.l := by
  have i := inv_of hK hp h
  refine Classical.byContradiction fun hn => ?_
  have hm := i.missing hr p hf hn
  have hnd : s.l.Nodup := i.sorted.imp (fun {a b} hab e => by subst e; omega)
  have hsub : (s.l.filter (fun q => decide (ts q < ts p))).Subperm (s.hist.filter (fun q => decide (ts q < ts p))) := by
    apply List.subperm_of_subset (hnd.filter _)
    intro q hq
    rw [List.mem_filter] at hq ⊢
    exact ⟨i.sub q hq.1, hq.2⟩
  have := hsub.length_le
  omega

/-- **C126 (the oldest of all stays)** The first message in the buffer is the oldest received in the run. -/
theorem C126_lower_end (ts : P → Nat) (c : Cfg) (hp : ∀ n, c.limit < n → c.pop n < n) (as : List (Act P)) (s : St P)
    (h : run ts c (St.init P) as = .ok s) (hr : s.running = true) (q : P) (hq : q ∈ s.hist) :
    ∃ a, s.l.head? = some a ∧ ∀ x ∈ s.hist, ts a ≤ ts x := by
  have i : Inv ts c 1 s := inv_of (by omega) (fun n hn => by have := hp n hn; omega) h
  have key : ∀ x ∈ s.hist, ∃ a ∈ s.l, ts a ≤ ts x := by
    intro x hx
    obtain ⟨y, hy, e⟩ := exists_first ts _ x hx
    by_cases hyl : y ∈ s.l
    · exact ⟨y, hyl, by omega⟩
    · have hm := i.missing hr y hy hyl
      obtain ⟨a, ha⟩ := List.exists_mem_of_length_pos (Nat.lt_of_lt_of_le Nat.zero_lt_one hm)
      rw [List.mem_filter] at ha
      exact ⟨a, ha.1, by have := ha.2; simp at this; omega⟩
  have hs := i.sorted
  obtain ⟨a0, ha0, -⟩ := key q hq
  cases hl : s.l with
  | nil => rw [hl] at ha0; simp at ha0
  | cons a t =>
    refine ⟨a, rfl, fun x hx => ?_⟩
    obtain ⟨b, hb, hle⟩ := key x hx
    rw [hl] at hb hs
    rcases List.mem_cons.1 hb with rfl | hb
    · exact hle
    · have := (List.pairwise_cons.1 hs).1 b hb; omega

theorem wf (ts : P → Nat) (l : List P) : WellFormed (pacman ts) l := by
  intro p _
  refine ⟨Nat.zero_lt_one, fun i hi => ?_⟩
  simp only [pacman] at hi ⊢
  omega

theorem mem_wanted (ts : P → Nat) (l : List P) (b e : Nat) (p : P) (i : Nat) :
    (p, i) ∈ wanted (pacman ts) l b e ↔ p ∈ l ∧ i = 0 ∧ b ≤ ts p ∧ ts p < e := by
  rw [wanted, List.mem_filter, mem_allFrames]
  simp only [frameTs, Bool.and_eq_true, decide_eq_true_eq]
  simp only [pacman]
  constructor
  · rintro ⟨⟨h1, h2⟩, h3, h4⟩; exact ⟨h1, by omega, of_decide_eq_true h3, of_decide_eq_true h4⟩
  · rintro ⟨h1, h2, h3, h4⟩; exact ⟨⟨h1, by omega⟩, decide_eq_true h3, decide_eq_true h4⟩

/-- **C126 (nothing is ever reported as gone)** During a run a window that begins at or after some message of the run is answered
"found" or put off, never refused as too old - whatever has been discarded (the search object not lying behind the newest
message). -/
theorem C126_never_too_old (ts : P → Nat) (c : Cfg) (hp : ∀ n, c.limit < n → c.pop n < n) (as : List (Act P)) (s : St P)
    (h : run ts c (St.init P) as = .ok s) (hr : s.running = true) (q : P) (hq : q ∈ s.hist)
    (geo : GeoId) (ft : Nat) (key : Nat) (k : Counters) (dr : Request) (hb : ts q ≤ dr.wBegin)
    (hk : ∀ z, s.l.getLast? = some z → dr.wEnd ≤ ts z → key ≤ ts z) :
    ∃ r, answer ts geo ft s key k dr = .ok r ∧
      ((∃ z ∈ s.l, dr.wEnd ≤ ts z) → r.code = .found ∧ ∃ f, r.fragment = some f ∧ f.header.dataNotFound = false) ∧
      ((∀ z ∈ s.l, ts z < dr.wEnd) → r.code = .notYet) := by
  have i : Inv ts c 1 s := inv_of (by omega) (fun n hn => by have := hp n hn; omega) h
  obtain ⟨a, ha, hmin⟩ := C126_lower_end ts c hp as s h hr q hq
  obtain ⟨r, hr1, hr2, -, hr3, hr4⟩ := C81_classification (pacman ts) geo ft s.l i.sorted key s.running k dr hk
  refine ⟨r, hr1, ?_⟩
  have hne : s.l ≠ [] := by intro e; simp [e] at ha
  obtain ⟨_, z, -, hz⟩ := ends hne
  have hbd : bounds (pacman ts) s.l = some (ts a, ts z) := by simp only [bounds, ha, hz, pacman]
  have hqa := hmin q hq
  have hlt : ¬ dr.wBegin < ts a := by omega
  rw [hbd] at hr2
  simp only [classify, hlt, if_false, hr, if_true] at hr2
  have hlast : ∀ x ∈ s.l, ts x ≤ ts z := by
    intro x hx
    have hs := i.sorted
    have e := dropLast_last hz
    rw [e] at hx hs
    rcases List.mem_append.1 hx with hx | hx
    · exact Nat.le_of_lt ((List.pairwise_append.1 hs).2.2 x hx z (by simp))
    · simp only [List.mem_singleton] at hx; subst hx; omega
  constructor
  · rintro ⟨x, hx, hxe⟩
    have := hlast x hx
    rw [if_pos (by omega)] at hr2
    refine ⟨hr2, ?_⟩
    cases hfr : r.fragment with
    | none => have := hr3.1 hfr; rw [hr2] at this; cases this
    | some f => exact ⟨f, rfl, by rw [(hr4 f hfr).1, hr2]; rfl⟩
  · intro hall
    have := hall z (List.mem_of_getLast? hz)
    rw [if_neg (by omega)] at hr2
    exact hr2

/-- **C126 is false of the code, and how** Whenever a message of the run is no longer in the buffer, every window around it which
some message received precedes and some message in the buffer follows is answered "found", without error bit and without the message. -/
theorem C126_holes_counterexample (ts : P → Nat) (c : Cfg) (hp : ∀ n, c.limit < n → c.pop n < n) (as : List (Act P)) (s : St P)
    (h : run ts c (St.init P) as = .ok s) (hr : s.running = true) (p : P) (hn : p ∉ s.l)
    (q : P) (hq : q ∈ s.hist) (z : P) (hz : z ∈ s.l)
    (geo : GeoId) (ft : Nat) (key : Nat) (k : Counters) (dr : Request) (hb : ts q ≤ dr.wBegin) (he : dr.wEnd ≤ ts z)
    (hk : ∀ z, s.l.getLast? = some z → dr.wEnd ≤ ts z → key ≤ ts z) :
    ∃ r f, answer ts geo ft s key k dr = .ok r ∧ r.code = .found ∧ r.fragment = some f ∧ f.header.dataNotFound = false ∧
      ∀ i, (p, i) ∉ f.frames := by
  have i : Inv ts c 1 s := inv_of (by omega) (fun n hn => by have := hp n hn; omega) h
  obtain ⟨r, hr1, hr2, -⟩ := C126_never_too_old ts c hp as s h hr q hq geo ft key k dr hb hk
  obtain ⟨hc, f, hf, hd⟩ := hr2 ⟨z, hz, he⟩
  refine ⟨r, f, hr1, hc, hf, hd, fun j hj => ?_⟩
  rw [(found_frames (pacman ts) geo ft s.l i.sorted (wf ts s.l) key s.running k dr r f hr1 hc hf).1, mem_wanted] at hj
  exact hn (List.mem_of_mem_filter hj.1)

/-- **C126 (complete, partial)** In a run of at most `limit` messages nothing is discarded, and a fragment sent without error
carries exactly the messages received in its window (the first of each time), if the uninitialised search object does not lie
behind the beginning of the window. Missing: longer runs (`C126_holes_counterexample`, `C126_steady_counterexample`). -/
theorem C126_complete_partial (ts : P → Nat) (c : Cfg) (hp : ∀ n, c.limit < n → c.pop n < n) (as : List (Act P)) (s : St P)
    (h : run ts c (St.init P) as = .ok s) (hr : s.running = true) (hs : s.hist.length ≤ c.limit)
    (geo : GeoId) (ft : Nat) (key : Nat) (k : Counters) (dr : Request) (hk : key ≤ dr.wBegin) (r : Result P) (f : Fragment P)
    (ha : answer ts geo ft s key k dr = .ok r) (hc : r.code = .found) (hf : r.fragment = some f) :
    f.frames.Nodup ∧ ∀ p i, (p, i) ∈ f.frames ↔ FirstWithTime ts s.hist p ∧ i = 0 ∧ dr.wBegin ≤ ts p ∧ ts p < dr.wEnd := by
  have i : Inv ts c 1 s := inv_of (by omega) (fun n hn => by have := hp n hn; omega) h
  have hnd : s.l.Nodup := i.sorted.imp (fun {a b} hab e => by subst e; omega)
  have hfr := (found_frames (pacman ts) geo ft s.l i.sorted (wf ts s.l) key s.running k dr r f ha hc hf).1
  refine ⟨?_, fun p j => ?_⟩
  · rw [hfr]; exact (allFrames_nodup _ _ (hnd.filter _)).filter _
  · rw [hfr, mem_wanted, (i.fresh hr hs).2 p, List.mem_filter]
    simp only [decide_eq_true_eq]
    simp only [pacman]
    constructor
    · rintro ⟨⟨h1, -⟩, h2, h3, h4⟩; exact ⟨h1, h2, h3, h4⟩
    · rintro ⟨h1, h2, h3, h4⟩; exact ⟨⟨h1, by omega⟩, h2, h3, h4⟩

/-- Example: limit 3, half of the buffer to be discarded. -/
def demo : Cfg := ⟨3, fun n => n / 2⟩

def dr0 (b e : Nat) : Request := ⟨1, b, b, e, 1, 0⟩

/-- A run with a cleanup in the middle of which a message arrives; the hypotheses of the theorems above are met, for `K` two. -/
example : (∀ n, demo.limit < n → 2 + demo.pop n ≤ n) ∧ (∀ n, demo.limit < n → demo.pop n < n) ∧
    ∃ s, run id demo (St.init Nat) [.start, .recv 100, .recv 300, .recv 200, .recv 400, .clean, .clean, .clean, .clean, .recv 600,
        .clean, .clean, .clean, .clean, .recv 700] = .ok s ∧ s.running = true ∧ s.clean = .off ∧
      s.hist = [100, 300, 200, 400, 600, 700] ∧ s.l = [100, 200, 300, 700] ∧ 400 ∉ s.l ∧
      FirstWithTime id s.hist 200 ∧ (s.hist.filter (fun q => decide (id q < id 200))).length < 2 ∧
      ∃ r f, answer id ⟨2, 0, 1⟩ 4 s 0 ⟨0, 0, 0, 0, 0, 0⟩ (dr0 300 700) = .ok r ∧ r.code = .found ∧ r.fragment = some f ∧
        f.header.dataNotFound = false ∧ f.frames = [(300, 0)] := by
  refine ⟨fun n hn => ?_, fun n hn => ?_, _, rfl, rfl, rfl, rfl, rfl, by decide, ⟨[100, 300], [400, 600, 700], rfl, by decide⟩,
    by decide, _, _, rfl, rfl, rfl, rfl, by decide⟩
  · simp only [demo] at hn ⊢; omega
  · simp only [demo] at hn ⊢; omega

/-- Three messages are below the limit: `C126_complete_partial` applies. -/
example : ∃ s r f, run id demo (St.init Nat) [.start, .recv 100, .recv 300, .clean, .recv 200] = .ok s ∧ s.running = true ∧
    s.hist.length ≤ demo.limit ∧ answer id ⟨2, 0, 1⟩ 4 s 0 ⟨0, 0, 0, 0, 0, 0⟩ (dr0 150 300) = .ok r ∧ r.code = .found ∧
    r.fragment = some f ∧ f.frames = [(200, 0)] := ⟨_, _, _, rfl, rfl, by decide, rfl, rfl, rfl, by decide⟩

/-- The default fraction of 0.8 and any other up to `1 - 2^-22` meet the hypothesis, for any rounding with the relative
accuracy of single precision. -/
theorem toPopOf_lt (rnd : ℚ → ℚ) (hrnd : ∀ x, 0 ≤ x → rnd x ≤ x * (1 + 1 / 16777216))
    (hpos : ∀ x, 0 ≤ x → 0 ≤ rnd x) (sizePct : ℚ) (h0 : 0 ≤ sizePct) (h1 : sizePct ≤ 1 - 1 / 4194304) (n : Nat) (hn : 0 < n) :
    Cleanup.toPopOf rnd sizePct n < n := by
  have hn : (0 : ℚ) < (n : ℚ) := by exact_mod_cast hn
  have e1 := hrnd (n : ℚ) hn.le
  have p1 := hpos (n : ℚ) hn.le
  have e2 := hrnd (sizePct * rnd (n : ℚ)) (mul_nonneg h0 p1)
  have p2 := hpos (sizePct * rnd (n : ℚ)) (mul_nonneg h0 p1)
  have e3 : sizePct * rnd (n : ℚ) ≤ (1 - 1 / 4194304) * ((n : ℚ) * (1 + 1 / 16777216)) :=
    mul_le_mul h1 e1 p1 (by norm_num)
  have e4 : rnd (sizePct * rnd (n : ℚ)) < (n : ℚ) := by
    have : (1 - 1 / 4194304) * ((n : ℚ) * (1 + 1 / 16777216)) * (1 + 1 / 16777216) < (n : ℚ) := by
      have : (1 - 1 / 4194304 : ℚ) * (1 + 1 / 16777216) * (1 + 1 / 16777216) < 1 := by norm_num
      nlinarith
    nlinarith
  rw [Cleanup.toPopOf, Nat.floor_lt p2]
  exact e4

/-! ### What goes -/

theorem run_append (ts : P → Nat) (c : Cfg) (as bs : List (Act P)) (s s' : St P) (h : run ts c s as = .ok s') :
    run ts c s (as ++ bs) = run ts c s' bs := by
  induction as generalizing s with
  | nil => simp only [run, Outcome.ok.injEq] at h; subst h; rfl
  | cons a as ih =>
    simp only [run, List.cons_append] at h ⊢
    cases hs : step ts c s a with
    | ub w => rw [hs] at h; cases h
    | throws w => rw [hs] at h; cases h
    | ok s1 => rw [hs] at h; simp only [Outcome.bind_ok] at h ⊢; exact ih s1 h

theorem loop_run (ts : P → Nat) (c : Cfg) (next : Nat) (hist : List P) (a : P) (ha : ts a < next) (n : Nat) :
    ∀ t : List P, n ≤ t.length →
    run ts c ⟨true, a :: t, next, .loop n, hist⟩ (List.replicate (2 * n + 2) .clean) =
      .ok ⟨true, (a :: t).take (t.length + 1 - n), next, .off, hist⟩ := by
  induction n with
  | zero =>
    intro t _
    rw [show (a :: t).take (t.length + 1 - 0) = a :: t from List.take_of_length_le (by simp)]
    rfl
  | succ n ih =>
    intro t ht
    obtain ⟨t', z, rfl⟩ : ∃ t' z, t = t' ++ [z] := by
      rcases List.eq_nil_or_concat t with rfl | ⟨t', z, rfl⟩
      · simp at ht
      · exact ⟨t', z, by simp⟩
    have e1 : step ts c ⟨true, a :: (t' ++ [z]), next, .loop (n + 1), hist⟩ .clean =
        .ok ⟨true, a :: (t' ++ [z]), next, .pop n, hist⟩ := by
      simp only [step, cleanStep, if_true, SkipList.front, List.head?_cons, ha]
    have e2 : step ts c ⟨true, a :: (t' ++ [z]), next, .pop n, hist⟩ .clean =
        .ok ⟨true, a :: t', next, .loop n, hist⟩ := by
      have : SkipList.pop (a :: (t' ++ [z])) 1 = a :: t' := by
        rw [pop_one, ← List.cons_append, List.dropLast_concat]
      simp only [step, cleanStep, if_true, this]
    rw [show 2 * (n + 1) + 2 = (2 * n + 2) + 1 + 1 by omega, List.replicate_succ, List.replicate_succ]
    simp only [run, e1, e2, Outcome.bind_ok]
    rw [ih t' (by simp at ht; omega)]
    congr 2
    rw [← List.cons_append, List.take_append_of_le_length (by simp)]
    congr 1
    simp

/-- **C126 (what a cleanup does)** A pass which nothing disturbs, above the limit and with the oldest message before the recording
position, discards the newest messages: the buffer keeps its beginning. -/
theorem C126_pass (ts : P → Nat) (c : Cfg) (s : St P) (hr : s.running = true) (ho : s.clean = .off)
    (hl : c.limit < s.l.length) (hp : c.pop s.l.length < s.l.length) (a : P) (ha : s.l.head? = some a) (hn : ts a < s.next) :
    run ts c s (List.replicate (2 * c.pop s.l.length + 4) .clean) =
      .ok { s with l := s.l.take (s.l.length - c.pop s.l.length) } := by
  obtain ⟨running, l, next, cl, hist⟩ := s
  simp only at hr ho hl hp ha hn ⊢
  subst hr ho
  obtain ⟨t, rfl⟩ : ∃ t, l = a :: t := by
    cases l with
    | nil => simp at ha
    | cons b t => simp at ha; subst ha; exact ⟨t, rfl⟩
  have e1 : step ts c ⟨true, a :: t, next, .off, hist⟩ .clean = .ok ⟨true, a :: t, next, .counting, hist⟩ := by
    have : SkipList.occupancy (a :: t) > c.limit := hl
    simp only [step, cleanStep, if_true, this]
  have e2 : step ts c ⟨true, a :: t, next, .counting, hist⟩ .clean =
    .ok ⟨true, a :: t, next, .loop (c.pop (a :: t).length), hist⟩ := rfl
  generalize hm : c.pop (a :: t).length = m at *
  rw [show 2 * m + 4 = (2 * m + 2) + 1 + 1 by omega, List.replicate_succ, List.replicate_succ]
  simp only [run, e1, e2, Outcome.bind_ok]
  exact loop_run ts c next hist a hn m t (by simp at hp; omega)

theorem idle_run (ts : P → Nat) (c : Cfg) (s : St P) (hr : s.running = true) (ho : s.clean = .off)
    (hl : s.l.length ≤ c.limit) (n : Nat) : run ts c s (List.replicate n .clean) = .ok s := by
  induction n with
  | zero => rfl
  | succ n ih =>
    have : step ts c s .clean = .ok s := by
      have : ¬ SkipList.occupancy s.l > c.limit := by simp only [SkipList.occupancy]; omega
      simp only [step, hr, if_true, cleanStep, ho, this, if_false]
    rw [List.replicate_succ]
    simp only [run, this, Outcome.bind_ok, ih]

theorem write_newest (ts : P → Nat) (p : P) : ∀ l : List P, (∀ q ∈ l, ts q < ts p) → (SkipList.write ts l p).1 = l ++ [p] := by
  intro l
  induction l with
  | nil => intro _; rfl
  | cons b t ih =>
    intro h
    have hb := h b (by simp)
    have := ih (fun q hq => h q (by simp [hq]))
    simp only [SkipList.write] at this ⊢
    unfold SkipList.insert
    rw [if_neg (by omega), if_neg (by omega)]
    simp [this]

/-- A run without haste: each message is followed by the steps of one cleanup pass. -/
def feed (c : Cfg) (msgs : List P) : List (Act P) :=
  msgs.flatMap (fun p => .recv p :: List.replicate (2 * c.pop (c.limit + 1) + 4) .clean)

/-- **C126 is false of the code, in the steady state** Messages arrive in order, and a cleanup pass follows each. However long
the run is, the buffer consists of the very first messages of the run - as many as the first cleanup left - and of
a few of the newest; everything received in between is gone. -/
theorem C126_steady_counterexample (ts : P → Nat) (c : Cfg) (h1 : 0 < c.pop (c.limit + 1)) (h2 : c.pop (c.limit + 1) ≤ c.limit)
    (msgs : List P) (hs : StrictSorted ts msgs) (hb : ∀ p ∈ msgs, ts p < noRecording) :
    ∃ r, (c.limit + 1 - c.pop (c.limit + 1)) + r ≤ c.limit ∧
      run ts c (St.init P) (.start :: feed c msgs) =
        .ok ⟨true, msgs.take (c.limit + 1 - c.pop (c.limit + 1)) ++
          (msgs.drop (c.limit + 1 - c.pop (c.limit + 1))).drop (msgs.length - (c.limit + 1 - c.pop (c.limit + 1)) - r),
          noRecording, .off, msgs⟩ := by
  generalize hB : c.limit + 1 - c.pop (c.limit + 1) = B
  have hB1 : 0 < B := by omega
  have hB2 : B ≤ c.limit := by omega
  induction msgs using List.reverseRecOn with
  | nil => exact ⟨0, by omega, by simp; rfl⟩
  | append_singleton msgs p ih =>
    obtain ⟨hs1, -, hs2⟩ := List.pairwise_append.1 hs
    obtain ⟨r, hr, hrun⟩ := ih hs1 (fun q hq => hb q (List.mem_append_left _ hq))
    generalize hl0 : msgs.take B ++ (msgs.drop B).drop (msgs.length - B - r) = l0 at hrun
    have hsub0 : ∀ q ∈ l0, q ∈ msgs := by
      intro q hq
      rw [← hl0] at hq
      rcases List.mem_append.1 hq with hq | hq
      · exact List.mem_of_mem_take hq
      · exact List.mem_of_mem_drop (List.mem_of_mem_drop hq)
    have hfeed : (Act.start :: feed c (msgs ++ [p]) : List (Act P)) =
        (.start :: feed c msgs) ++ (.recv p :: List.replicate (2 * c.pop (c.limit + 1) + 4) .clean) := by
      simp [feed]
    have hw : (SkipList.write ts l0 p).1 = l0 ++ [p] :=
      write_newest ts p l0 (fun q hq => hs2 q (hsub0 q hq) p (by simp))
    have hstep : step ts c ⟨true, l0, noRecording, .off, msgs⟩ (.recv p) =
        .ok ⟨true, l0 ++ [p], noRecording, .off, msgs ++ [p]⟩ := by
      simp only [step, if_true, hw]
    rw [hfeed]
    have hlen0 : l0.length = min B msgs.length + min r (msgs.length - B) := by
      rw [← hl0]; simp only [List.length_append, List.length_take, List.length_drop]; omega
    by_cases hfull : l0.length + 1 ≤ c.limit
    · by_cases hm : msgs.length < B
      · refine ⟨0, by omega, ?_⟩
        rw [run_append _ _ _ _ _ _ hrun]
        simp only [run, hstep, Outcome.bind_ok]
        rw [idle_run ts c _ rfl rfl (by simpa using hfull)]
        have : l0 = msgs := by
          have e : msgs.drop B = [] := List.drop_eq_nil_of_le (by omega)
          rw [← hl0, List.take_of_length_le (by omega), e]; simp
        have e : (msgs ++ [p]).drop B = [] := List.drop_eq_nil_of_le (by simp; omega)
        rw [this, List.take_of_length_le (by simp; omega), e]
        simp
      · refine ⟨min r (msgs.length - B) + 1, by omega, ?_⟩
        rw [run_append _ _ _ _ _ _ hrun]
        simp only [run, hstep, Outcome.bind_ok]
        rw [idle_run ts c _ rfl rfl (by simpa using hfull)]
        congr 2
        rw [← hl0, List.take_append_of_le_length (by omega), List.drop_append_of_le_length (by omega),
          List.length_append, List.length_singleton,
          List.drop_append_of_le_length (by simp only [List.length_drop]; omega), List.append_assoc]
        congr 3
        omega
    · have hlim : (l0 ++ [p]).length = c.limit + 1 := by
        simp only [List.length_append, List.length_singleton]; omega
      have hmB : B ≤ msgs.length := by omega
      have hne : l0 ++ [p] ≠ [] := by simp
      obtain ⟨a, -, ha, -⟩ := ends hne
      have ham : a ∈ msgs ++ [p] := by
        rcases List.mem_append.1 (List.mem_of_head? ha) with hq | hq
        · exact List.mem_append_left _ (hsub0 a hq)
        · exact List.mem_append_right _ hq
      have hpass := C126_pass ts c ⟨true, l0 ++ [p], noRecording, .off, msgs ++ [p]⟩ rfl rfl
        (by simp only [hlim]; omega) (by simp only [hlim]; omega) a ha (hb a ham)
      simp only [hlim] at hpass
      refine ⟨0, by omega, ?_⟩
      rw [run_append _ _ _ _ _ _ hrun]
      simp only [run, hstep, Outcome.bind_ok]
      rw [hpass]
      congr 2
      rw [hB, List.drop_eq_nil_of_le (by simp only [List.length_drop, List.length_append, List.length_singleton]; omega),
        List.append_nil, List.take_append_of_le_length (by omega), ← hl0,
        List.take_append_of_le_length (by simp only [List.length_take]; omega), List.take_take,
        List.take_append_of_le_length (by omega), Nat.min_self]

set_option maxRecDepth 10000 in
/-- Eleven messages: the first two and the newest are left; a request for the seconds in between is answered without error and empty. -/
example : 0 < demo.pop (demo.limit + 1) ∧ demo.pop (demo.limit + 1) ≤ demo.limit ∧ ∃ s r f,
    run id demo (St.init Nat) (.start :: feed demo [1, 2, 3, 4, 5, 6, 7, 8, 9, 10, 11]) = .ok s ∧ s.l = [1, 2, 11] ∧
    answer id ⟨2, 0, 1⟩ 4 s 0 ⟨0, 0, 0, 0, 0, 0⟩ (dr0 3 11) = .ok r ∧ r.code = .found ∧ r.fragment = some f ∧
    f.header.dataNotFound = false ∧ f.frames = [] :=
  ⟨by decide, by decide, ⟨true, [1, 2, 11], noRecording, .off, [1, 2, 3, 4, 5, 6, 7, 8, 9, 10, 11]⟩, _, _, rfl, rfl, rfl, rfl,
    rfl, rfl, by decide⟩

/-- **C126 is false of the code for recent messages** Directly after the pass the newest message received is gone, and a request for
it is put off as if it had not arrived yet. -/
theorem C126_recent_counterexample : ∃ s r, run id demo (St.init Nat) ([.start, .recv 100, .recv 200, .recv 300, .recv 400] ++
      List.replicate 8 .clean) = .ok s ∧ s.hist = [100, 200, 300, 400] ∧ s.l = [100, 200] ∧ s.clean = .off ∧
    answer id ⟨2, 0, 1⟩ 4 s 0 ⟨0, 0, 0, 0, 0, 0⟩ (dr0 300 400) = .ok r ∧ r.code = .notYet :=
  ⟨_, _, rfl, rfl, rfl, rfl, rfl, rfl⟩

/-- **C126 is false of the code for recordings** The cleanup compares the oldest message with the recording position and
discards the newest: with the recording at 200, messages after it go before they are recorded; with the recording at the
oldest message nothing goes, however full the buffer is. -/
theorem C126_recording_counterexample : ∃ s s', run id demo (St.init Nat)
      ([.start, .recv 100, .recv 200, .recv 300, .recv 400, .record 200] ++ List.replicate 8 .clean) = .ok s ∧
    s.l = [100, 200] ∧ s.next = 200 ∧
    run id demo (St.init Nat) ([.start, .recv 100, .recv 200, .recv 300, .recv 400, .record 100] ++ List.replicate 4 .clean) =
      .ok s' ∧ s'.l = [100, 200, 300, 400] ∧ s'.clean = .off :=
  ⟨_, _, rfl, rfl, rfl, rfl, rfl, rfl⟩

/-- A fraction of one, which the configuration accepts (C22), crashes the link with the first cleanup. -/
theorem C126_all_counterexample : run id ⟨1, fun n => n⟩ (St.init Nat) ([.start, .recv 100, .recv 200] ++ List.replicate 8 .clean) =
    .ub .nullDeref := rfl

/-! ### Requests that wait -/

/-- Number of steps of cleanups in a sequence. -/
def cleans : List (RAct P) → Nat
  | [] => 0
  | .clean :: as => cleans as + 1
  | _ :: as => cleans as

/-- A state with an unanswered or answered request after at most `n` steps of cleanups. -/
def Bounded (ts : P → Nat) (dr : Request) (n : Nat) (x : RSt P) : Prop :=
  match x.place with
  | .pool => x.evals ≤ n ∨ x.evals ≤ n + 1 ∧ ∃ z ∈ x.s.l, dr.wEnd ≤ ts z
  | .toPark => x.evals ≤ n + 1
  | .waiting _ => x.evals ≤ n + 1
  | .answered _ => x.evals ≤ n + 2

theorem Bounded.mono {ts : P → Nat} {dr : Request} {n : Nat} {x : RSt P} (h : Bounded ts dr n x) (s : St P)
    (hs : ∀ z ∈ x.s.l, z ∈ s.l) : Bounded ts dr n { x with s := s } := by
  obtain ⟨s0, pl, ev⟩ := x
  cases pl with
  | pool =>
    rcases h with h | ⟨h, z, hz, he⟩
    · exact Or.inl h
    · exact Or.inr ⟨h, z, hs z hz, he⟩
  | toPark => exact h
  | waiting r => exact h
  | answered b => exact h

theorem Bounded.removed {ts : P → Nat} {dr : Request} {n : Nat} {x : RSt P} (h : Bounded ts dr n x) (s : St P) :
    Bounded ts dr (n + 1) { x with s := s } := by
  obtain ⟨s0, pl, ev⟩ := x
  cases pl with
  | pool =>
    rcases h with h | ⟨h, -⟩
    · exact Or.inl (Nat.le_succ_of_le h)
    · exact Or.inl h
  | toPark => exact Nat.le_succ_of_le h
  | waiting r => exact Nat.le_succ_of_le h
  | answered b => exact Nat.le_succ_of_le h

/-- If the newest message is not before the end of the window, an evaluation sends a fragment. -/
theorem answered_of_newest (ts : P → Nat) (geo : GeoId) (ft : Nat) (s : St P) (hs : StrictSorted ts s.l) (key : Nat) (k : Counters)
    (dr : Request) (hk : key ≤ dr.wEnd) (z : P) (hz : z ∈ s.l) (he : dr.wEnd ≤ ts z) (r : Result P)
    (hr : answer ts geo ft s key k dr = .ok r) : r.fragment ≠ none := by
  obtain ⟨r', h1, h2, -, h3, -⟩ := C81_classification (pacman ts) geo ft s.l hs key s.running k dr
    (fun z _ he => Nat.le_trans hk he)
  have hrr : r = r' := by
    have : Outcome.ok r = Outcome.ok r' := hr.symm.trans h1
    cases this; rfl
  subst hrr
  have hne : s.l ≠ [] := by intro e; rw [e] at hz; simp at hz
  obtain ⟨a, b, ha, hb⟩ := ends hne
  have hlast : ts z ≤ ts b := by
    have hs := hs
    have e := dropLast_last hb
    rw [e] at hz hs
    rcases List.mem_append.1 hz with hx | hx
    · exact Nat.le_of_lt ((List.pairwise_append.1 hs).2.2 z hx b (by simp))
    · simp only [List.mem_singleton] at hx; subst hx; omega
  have hbd : bounds (pacman ts) s.l = some (ts a, ts b) := by simp only [bounds, ha, hb, pacman]
  rw [hbd] at h2
  intro hn
  have hcode := h3.1 hn
  rw [h2] at hcode
  simp only [classify] at hcode
  split at hcode
  · cases hcode
  · rw [if_pos (by omega)] at hcode; cases hcode

theorem bounded_step {ts : P → Nat} {c : Cfg} (hp : ∀ n, c.limit < n → c.pop n < n) {limit : Nat} {dr : Request} {n : Nat}
    {x : RSt P} (i : Inv ts c 1 x.s) (h : Bounded ts dr n x) (a : RAct P) (hk : ∀ key, a = .eval key → key ≤ dr.wEnd) :
    ∃ x', rstep ts c limit dr x a = .ok x' ∧ Inv ts c 1 x'.s ∧ Bounded ts dr (n + cleans [a]) x' := by
  have hp' : ∀ n, c.limit < n → 1 + c.pop n ≤ n := fun n hn => by have := hp n hn; omega
  cases a with
  | recv p =>
    obtain ⟨s', e, i'⟩ := inv_step Nat.zero_lt_one hp' i (.recv p)
    refine ⟨{ x with s := s' }, by simp only [rstep, linkStep, e, Outcome.bind_ok], i', h.mono s' ?_⟩
    intro z hz
    simp only [step] at e
    split at e
    · cases e; exact (insert_sub ts p x.s.l).subset hz
    · cases e; exact hz
  | record t => exact ⟨{ x with s := { x.s with next := t } }, rfl, ⟨i.sorted, i.sub, i.idle, i.room, i.missing, i.short, i.fresh⟩, h.mono _ (fun z hz => hz)⟩
  | clean =>
    obtain ⟨s', e, i'⟩ := inv_step Nat.zero_lt_one hp' i .clean
    exact ⟨{ x with s := s' }, by simp only [rstep, linkStep, e, Outcome.bind_ok], i', h.removed s'⟩
  | eval key =>
    have hk := hk key rfl
    simp only [rstep, cleans, Nat.add_zero]
    by_cases hc : x.place = .pool ∧ x.s.clean = .off
    · rw [if_pos hc]
      obtain ⟨r, hr, -⟩ := C81_classification (pacman ts) ⟨2, 0, 1⟩ 4 x.s.l i.sorted key x.s.running ⟨0, 0, 0, 0, 0, 0⟩ dr
        (fun z _ he => Nat.le_trans hk he)
      have hr' : answer ts ⟨2, 0, 1⟩ 4 x.s key ⟨0, 0, 0, 0, 0, 0⟩ dr = .ok r := hr
      simp only [hr', Outcome.bind_ok]
      obtain ⟨s0, pl, ev⟩ := x
      simp only at hc
      obtain ⟨rfl, -⟩ := hc
      cases hf : r.fragment with
      | some f =>
        refine ⟨_, rfl, i, ?_⟩
        simp only [Bounded] at h ⊢
        rcases h with h | ⟨h, -⟩ <;> omega
      | none =>
        refine ⟨_, rfl, i, ?_⟩
        simp only [Bounded] at h ⊢
        rcases h with h | ⟨-, z, hz, he⟩
        · omega
        · exact absurd hf (answered_of_newest ts _ _ s0 i.sorted key _ dr hk z hz he r hr')
    · rw [if_neg hc]; exact ⟨x, rfl, i, h⟩
  | park =>
    simp only [rstep, cleans, Nat.add_zero]
    by_cases hc : x.place = .toPark
    · rw [if_pos hc]
      refine ⟨_, rfl, i, ?_⟩
      simp only [Bounded, hc] at h
      exact h
    · rw [if_neg hc]; exact ⟨x, rfl, i, h⟩
  | pass =>
    obtain ⟨s0, pl, ev⟩ := x
    simp only [rstep, cleans, Nat.add_zero]
    cases pl with
    | pool => exact ⟨_, rfl, i, h⟩
    | toPark => exact ⟨_, rfl, i, h⟩
    | answered b => exact ⟨_, rfl, i, h⟩
    | waiting r =>
      refine ⟨_, rfl, i, ?_⟩
      simp only [Bounded] at h
      simp only [Retry.treat]
      by_cases hw : dr.wEnd < newest ts s0
      · rw [if_pos hw]
        refine Or.inr ⟨h, ?_⟩
        simp only [newest, SkipList.back] at hw
        cases hz : s0.l.getLast? with
        | none => rw [hz] at hw; simp at hw
        | some z =>
          rw [hz] at hw
          exact ⟨z, List.mem_of_getLast? hz, by simp at hw; omega⟩
      · rw [if_neg hw]
        split
        · exact Nat.le_succ_of_le h
        · exact h

/-- **C126 (evaluations, partial)** A request on a PACMAN link is evaluated at most twice plus once per step of a cleanup, if the
uninitialised search object never lies behind its window. Missing: at most twice, as on the other links (C99, C111), which is
false (`C126_evaluations_counterexample`). -/
theorem C126_evaluations_partial (ts : P → Nat) (c : Cfg) (hp : ∀ n, c.limit < n → c.pop n < n) (as : List (Act P)) (s : St P)
    (h : run ts c (St.init P) as = .ok s) (limit : Nat) (dr : Request) (bs : List (RAct P))
    (hk : ∀ key, .eval key ∈ bs → key ≤ dr.wEnd) :
    ∃ x, rrun ts c limit dr ⟨s, .pool, 0⟩ bs = .ok x ∧ x.evals ≤ cleans bs + 2 := by
  have i : Inv ts c 1 s := inv_of (by omega) (fun n hn => by have := hp n hn; omega) h
  have key : ∀ (bs : List (RAct P)) (x : RSt P) (n : Nat), Inv ts c 1 x.s → Bounded ts dr n x →
      (∀ key, .eval key ∈ bs → key ≤ dr.wEnd) →
      ∃ x', rrun ts c limit dr x bs = .ok x' ∧ Bounded ts dr (n + cleans bs) x' := by
    intro bs
    induction bs with
    | nil => intro x n _ hb _; exact ⟨x, rfl, hb⟩
    | cons b bs ih =>
      intro x n i hb hk
      obtain ⟨x1, e1, i1, b1⟩ := bounded_step (limit := limit) hp i hb b (fun key e => hk key (by simp [e]))
      obtain ⟨x2, e2, b2⟩ := ih x1 _ i1 b1 (fun key hm => hk key (by simp [hm]))
      refine ⟨x2, by simp only [rrun, e1, Outcome.bind_ok, e2], ?_⟩
      have : n + cleans (b :: bs) = n + cleans [b] + cleans bs := by cases b <;> simp only [cleans] <;> omega
      rw [this]; exact b2
  obtain ⟨x, e, hb⟩ := key bs ⟨s, .pool, 0⟩ 0 i (Or.inl (Nat.le_refl 0)) hk
  refine ⟨x, e, ?_⟩
  obtain ⟨s1, pl, ev⟩ := x
  cases pl <;> simp only [Bounded] at hb <;> simp only <;> omega

/-- Example: limit 3, two messages to be discarded. -/
def two : Cfg := ⟨3, fun _ => 2⟩

/-- One turn of the witness: two more messages bring the request back to the pool, the cleanup takes them away before it is
evaluated. -/
def turn (t : Nat) : List (RAct Nat) :=
  [.recv t, .recv (t + 1), .pass] ++ (List.replicate 8 .clean ++ [.eval 0, .park])

theorem turn_run (hist : List Nat) (t n : Nat) (ht : 1000 ≤ t) :
    rrun id two 5 (dr0 250 350) ⟨⟨true, [100, 200], 18446744073709551615, .off, hist⟩, .waiting 0, n⟩ (turn t) =
      .ok ⟨⟨true, [100, 200], 18446744073709551615, .off, hist ++ [t] ++ [t + 1]⟩, .waiting 0, n + 1⟩ := by
  have w1 : (SkipList.write id [100, 200] t).1 = [100, 200, t] :=
    write_newest id t [100, 200] (by intro q hq; simp at hq; rcases hq with rfl | rfl <;> simp <;> omega)
  have w2 : (SkipList.write id [100, 200, t] (t + 1)).1 = [100, 200, t, t + 1] :=
    write_newest id (t + 1) [100, 200, t] (by intro q hq; simp at hq; rcases hq with rfl | rfl | rfl <;> simp <;> omega)
  have hn : 350 < t + 1 := by omega
  simp only [turn, List.cons_append, List.nil_append, rrun, rstep, linkStep, step, if_true, w1, w2, Outcome.bind_ok]
  simp only [newest, SkipList.back, Retry.treat, dr0]
  simp only [List.getLast?_cons_cons, List.getLast?_singleton, Option.map_some, Option.getD_some, id, hn, if_true]
  rfl

/-- **C126 is false of the code for waiting requests** A request may be evaluated any number of times and still wait: the message
that calls it back from the waiting list is taken away before the evaluation, by cleanup after cleanup. -/
theorem C126_evaluations_counterexample (k : Nat) : ∃ as s bs x, run id two (St.init Nat) as = .ok s ∧ s.running = true ∧
    rrun id two 5 (dr0 250 350) ⟨s, .pool, 0⟩ bs = .ok x ∧ x.evals = k + 1 ∧ x.place = .waiting 0 := by
  have rrun_append : ∀ (as bs : List (RAct Nat)) (x x' : RSt Nat), rrun id two 5 (dr0 250 350) x as = .ok x' →
      rrun id two 5 (dr0 250 350) x (as ++ bs) = rrun id two 5 (dr0 250 350) x' bs := by
    intro as
    induction as with
    | nil => intro bs x x' h; simp only [rrun, Outcome.ok.injEq] at h; subst h; rfl
    | cons a as ih =>
      intro bs x x' h
      simp only [rrun, List.cons_append] at h ⊢
      cases hs : rstep id two 5 (dr0 250 350) x a with
      | ub w => rw [hs] at h; cases h
      | throws w => rw [hs] at h; cases h
      | ok s1 => rw [hs] at h; simp only [Outcome.bind_ok] at h ⊢; exact ih bs s1 x' h
  have key : ∀ k : Nat, ∃ bs hist, rrun id two 5 (dr0 250 350)
      ⟨⟨true, [100, 200], 18446744073709551615, .off, [100, 200]⟩, .pool, 0⟩ bs =
      .ok ⟨⟨true, [100, 200], 18446744073709551615, .off, hist⟩, .waiting 0, k + 1⟩ := by
    intro k
    induction k with
    | zero => exact ⟨[.eval 0, .park], _, rfl⟩
    | succ k ih =>
      obtain ⟨bs, hist, e⟩ := ih
      exact ⟨bs ++ turn (1000 + 2 * k), _, (rrun_append _ _ _ _ e).trans (turn_run hist _ _ (by omega))⟩
  obtain ⟨bs, hist, e⟩ := key k
  exact ⟨[.start, .recv 100, .recv 200], _, bs, _, rfl, rfl, e, rfl, rfl⟩

/-- The hypotheses of `C126_evaluations_partial`: a request evaluated three times, in the course of a cleanup, and answered. -/
example : (∀ n, two.limit < n → two.pop n < n) ∧ ∃ x, rrun id two 5 (dr0 250 350) ⟨⟨true, [100, 200], noRecording, .off, [100, 200]⟩, .pool, 0⟩
    ([.eval 0, .park] ++ turn 1000 ++ [.recv 2000, .pass, .eval 0]) = .ok x ∧ x.evals = 3 ∧ x.place = .answered false :=
  ⟨fun n hn => by simp only [two] at hn ⊢; omega, _, rfl, rfl, rfl⟩

end Verif.PacLife
