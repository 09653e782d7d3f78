import Verif.ConcRecProps
/- Property C112: a recording left alone writes everything that is stored from its position on. -/
namespace Verif.ConcRec
open Verif.Ring Verif.Search Verif.DataReq Verif.ConcReq
open Verif.Record (span)

variable {P : Type} {T : PayloadType P} {n : Nat} {hw : Hw} {arr : List P → Prop}

/-! ### Runs of the recording thread alone -/

/-- The recording thread gets from `s` to `t` by itself, its loads returning the present values. -/
def To (T : PayloadType P) (n : Nat) (hw : Hw) (s t : St P) : Prop := ∃ N, run T n hw N s = t

theorem To.refl (s : St P) : To T n hw s s := ⟨0, rfl⟩

theorem To.head {s s' t : St P} (h : recNext T n hw s = some s') (g : To T n hw s' t) : To T n hw s t := by
  obtain ⟨N, g⟩ := g
  exact ⟨N + 1, by simp [run, h, g]⟩

theorem run_add (m k : Nat) (s : St P) : run T n hw (m + k) s = run T n hw k (run T n hw m s) := by
  induction m generalizing s with
  | zero => simp [run]
  | succ m ih =>
    rw [show m + 1 + k = (m + k) + 1 by omega]
    cases h : recNext T n hw s with
    | some s' => simp [run, h, ih]
    | none =>
      have : run T n hw k s = s := by cases k <;> simp [run, h]
      simp [run, h, this]

theorem To.trans {s t u : St P} (h : To T n hw s t) (g : To T n hw t u) : To T n hw s u := by
  obtain ⟨N, rfl⟩ := h
  obtain ⟨M, rfl⟩ := g
  exact ⟨N + M, run_add N M s⟩

/-! ### Calls -/

/-- The program asks neither the registry nor the marker. -/
def plain {β : Type} : Prog P β → Prop
  | .ret _ => True
  | .fail => True
  | .loadW _ f => ∀ x, plain (f x)
  | .loadR f => ∀ x, plain (f x)
  | .elem _ f => ∀ x, plain (f x)
  | .err _ => False
  | .marker _ => False

theorem plain_bind {β γ : Type} {p : Prog P β} {f : β → Prog P γ} (h : plain p) (g : ∀ b, plain (f b)) : plain (p.bind f) := by
  induction p with
  | ret b => exact g b
  | fail => trivial
  | loadW o k ih => exact fun x => ih x (h x)
  | loadR k ih => exact fun x => ih x (h x)
  | elem i k ih => exact fun x => ih x (h x)
  | err k ih => exact h.elim
  | marker k ih => exact h.elim

theorem plain_search (key : P → Nat) (t fuel s e : Nat) : plain (searchLoop n key t fuel s e) := by
  induction fuel generalizing s e with
  | zero => trivial
  | succ fuel ih =>
    intro x
    show plain (if (if s ≤ e then e - s else n + e - s) = 0 then _ else _)
    generalize (if s ≤ e then e - s else n + e - s) = d
    by_cases h : d = 0
    · rw [if_pos h]; trivial
    · rw [if_neg h]
      by_cases h' : t < key x
      · rw [if_pos h']; exact ih _ _
      · rw [if_neg h']; exact ih _ _

theorem plain_look (t : Nat) : plain (lookP T n t) := by
  refine plain_bind ?_ fun _ => trivial
  intro r w
  dsimp only
  split
  · trivial
  · intro x
    dsimp only
    split
    · trivial
    · exact plain_search _ _ _ _ _

theorem plain_good (o : Order) (i : Nat) : plain (goodO o i : Prog P Bool) := fun _ _ => trivial

theorem plain_test (o : Order) (i : Nat) : plain (testP o i : Prog P (Option Nat)) :=
  plain_bind (plain_good o i) fun _ => trivial

theorem plain_inc (o : Order) (i : Nat) : plain (incP o n i : Prog P (Option Nat)) := by
  refine plain_bind ?_ fun _ => trivial
  refine plain_bind (plain_good o i) fun g => ?_
  exact plain_bind (plain_good o _) fun _ => trivial

/-- The hardware for which the calls are specified: loads return the newest value. -/
def fhw (hw : Hw) : ConcReq.Hw := ⟨hw.strong, true, .acquire, hw.good, anyRequest⟩

/-- Not the call of `front()`. -/
def notFront : Kont → Prop
  | .front _ => False
  | _ => True

/-- The view of the recording thread. -/
def viewOf (s : St P) : View P := ⟨s.pub, s.popped, s.seen, s.sync⟩

theorem call {kk : Kont} (hk : notFront kk) {p : Prog P (Option Nat)} (pl : plain p) (s : St P) (hb : s.bad = false)
    (hp : s.pc = .run kk p) (hv : (viewOf s).Ok n arr) {Q : View P → Option Nat → Prop}
    (h : wp T .binary n (fhw hw) arr p (viewOf s) Q) :
    ∃ sn sy r, To T n hw s { s with pc := .run kk (.ret r), seen := sn, sync := sy } ∧
      (⟨s.pub, s.popped, sn, sy⟩ : View P).Ok n arr ∧ Q ⟨s.pub, s.popped, sn, sy⟩ r := by
  induction p generalizing s with
  | ret r =>
    refine ⟨s.seen, s.sync, r, ?_, hv, h _ (Fut.refl hv)⟩
    rw [← hp]
    exact To.refl s
  | fail => exact h.elim
  | loadW o f ih =>
    have h1 : s.sync ≤ s.seen := hv.mid
    have h2 : s.seen ≤ s.pub.length := hv.high
    have h3 : s.popped ≤ s.sync := hv.low
    let sy := if o = .acquire ∨ hw.strong = true then max s.sync s.pub.length else s.sync
    have hsy : s.sync ≤ sy ∧ sy ≤ s.pub.length ∧ (o = .acquire ∨ hw.strong = true → sy = s.pub.length) := by
      simp only [sy]
      split
      · exact ⟨by omega, by omega, fun _ => by omega⟩
      · exact ⟨by omega, by omega, fun hc => absurd hc (by assumption)⟩
    have hf : Fut n arr (viewOf s) ⟨s.pub, s.popped, s.pub.length, sy⟩ :=
      ⟨rfl, List.prefix_refl _, h2, hsy.1, ⟨hv.arr, hv.room, Nat.le_trans h3 hsy.1, hsy.2.1, Nat.le_refl _⟩⟩
    obtain ⟨sn, sy', r, g1, g2, g3⟩ := ih _ (pl _)
      { s with pc := .run kk (f (s.pub.length % n)), seen := s.pub.length, sync := sy } hb rfl hf.ok
      (h _ hf (fun _ => rfl) hsy.2.2)
    refine ⟨sn, sy', r, To.head ?_ g1, g2, g3⟩
    simp only [recNext, hb, hp, h2, if_true, sy]
    rfl
  | loadR f ih =>
    have hm : markR s kk = kk := by cases kk <;> first | rfl | exact hk.elim
    have ha : ∀ v, afterR hw s kk v = v := by intro v; cases kk <;> first | rfl | exact hk.elim
    obtain ⟨sn, sy', r, g1, g2, g3⟩ := ih _ (pl _) { s with pc := .run kk (f (s.popped % n)) } hb rfl hv
      (h _ (Fut.refl hv))
    refine ⟨sn, sy', r, To.head ?_ g1, g2, g3⟩
    simp only [recNext, hb, hp, hm, ha]
    rfl
  | elem i f ih =>
    have h1 : s.sync ≤ s.seen := hv.mid
    have h2 : s.seen ≤ s.pub.length := hv.high
    have hi : i < n ∧ number n s.popped i < s.sync := h.1
    obtain ⟨a, ha⟩ : ∃ a, s.pub[number n s.popped i]? = some a := ⟨_, List.getElem?_eq_getElem (by omega)⟩
    obtain ⟨sn, sy', r, g1, g2, g3⟩ := ih a (pl a) { s with pc := .run kk (f a) } hb rfl hv
      (h.2 _ a (Fut.refl hv) ha)
    refine ⟨sn, sy', r, To.head ?_ g1, g2, g3⟩
    simp only [recNext, hb, hp, hi, ha, and_self, if_true]
    rfl
  | err f ih => exact pl.elim
  | marker f ih => exact pl.elim

/-! ### The calls of the recording -/

/-- Only what is stored now arrives. -/
def only (pub : List P) : List P → Prop := fun l => l = [] ∨ l = pub

theorem only_ok (ha : ArrOk T .binary n arr) {pub : List P} (hp : arr pub) : ArrOk T .binary n (only pub) where
  start := .inl rfl
  wf := by
    rintro l (rfl | rfl)
    · exact ha.wf _ ha.start
    · exact ha.wf _ hp
  fixed := by intro nf h; cases h

theorem only_eq {pub : List P} (hne : pub ≠ []) {v v' : View P} (h : v.pub = pub) (f : Fut n (only pub) v v') : v'.pub = pub := by
  rcases f.ok.arr with e | e
  · have := f.pre
    rw [e, h] at this
    exact absurd (List.prefix_nil.1 this) hne
  · exact e

theorem good_end (hn : 2 ≤ n) (hs : n < 2147483648) {pub : List P} (hne : pub ≠ []) (w : ConcReq.Hw) (hfr : w.fresh = true) (v : View P)
    (hv : v.pub = pub) : wp T .binary n w (only pub) (good w.good (pub.length % n)) v fun _ g => g = false := by
  intro v1 f1 v2 f2 hf _ v3 f3
  have ok := f2.ok
  have e : v2.popped = v.popped := f2.pop.trans f1.pop
  have ep := only_eq hne hv (f1.trans f2)
  have hf := hf hfr
  have hlow := Nat.le_trans ok.low ok.mid; have hroom := ok.room; have hhigh := ok.high
  have hr := ringOf_repr hn v2.pub v2.popped v2.seen hlow (by omega) hhigh
  apply Bool.eq_false_iff.2
  intro hg
  have := (hr.occupied (show n ≤ endIdx by simp [endIdx]; omega) (pub.length % n) (Nat.mod_lt _ (by omega))).1
    (by rw [← e] at hg; exact hg)
  obtain ⟨c, hc, hcm⟩ := this
  rw [stored_length _ _ _ hhigh] at hc
  have e2 := slot_mod (show 0 < n by omega) v2.popped c (by omega)
  have e3 : pub.length % n = (v2.popped + c) % n := hcm.trans e2
  rw [ep] at hf hroom
  have h4 := number_slot (show 0 < n by omega) v2.popped pub.length (by omega) (by omega)
  have h5 := number_slot (show 0 < n by omega) v2.popped (v2.popped + c) (by omega) (by omega)
  rw [e3, h5] at h4
  omega

theorem inc_end (hn : 2 ≤ n) (hs : n < 2147483648) {pub : List P} (hne : pub ≠ []) (w : ConcReq.Hw) (hfr : w.fresh = true) (v : View P)
    (hv : v.pub = pub) (hok : v.Ok n (only pub)) (m : Nat) (h1 : v.popped ≤ m) (h2 : m < v.seen) (h3 : m + 1 = pub.length) :
    wp T .binary n w (only pub) (inc w.good n (m % n)) v fun _ i => i = endIdx := by
  refine wp_seq T .binary n w (only pub) hok (good_spec hn hs v m h1 h2) ?_
  rintro v1 _ f1 rfl
  have e : (if m % n + 1 = n then 0 else m % n + 1) = pub.length % n := by
    have := slot_mod (show 0 < n by omega) m 1 (by omega)
    have hr := Nat.mod_lt m (show 0 < n by omega)
    rw [← h3, ← this]; unfold slotIdx; split <;> split <;> omega
  simp only [if_true, e]
  refine wp_seq T .binary n w (only pub) f1.ok (good_end hn hs hne w hfr v1 (only_eq hne hv f1)) ?_
  rintro v2 _ f2 rfl
  intro v3 _
  rfl

/-! ### Passes -/

/-- The state of a recording with position `n0` and the file `file0` at the beginning, of which the payloads from `b0` to `b - 1`
have been written since. -/
structure J (T : PayloadType P) (pub : List P) (popped b0 : Nat) (file0 : List P) (n0 : Nat) (s : St P) (b : Nat) : Prop where
  bad : s.bad = false
  pe : s.pub = pub
  pop : s.popped = popped
  cl : s.cleaning = false
  lo : popped ≤ s.view
  hi : s.view ≤ pub.length
  syn : s.sync ≤ s.seen
  seen : s.seen ≤ pub.length
  be : b0 ≤ b
  bl : b ≤ pub.length
  file : s.file = file0 ++ (pub.take b).drop b0
  below : ∀ (i : Nat) (x : P), i < b → pub[i]? = some x → T.ts x < s.next
  above : ∀ (i : Nat) (x : P), b ≤ i → pub[i]? = some x → s.next ≤ T.ts x
  mono : n0 ≤ s.next

section
variable {pub : List P} {popped b0 n0 : Nat} {file0 : List P}

theorem J.set {s : St P} {b : Nat} (j : J T pub popped b0 file0 n0 s b) (pc : Pc P) (view seen sync : Nat)
    (h1 : s.view ≤ view) (h2 : view ≤ pub.length) (h3 : sync ≤ seen) (h4 : seen ≤ pub.length) :
    J T pub popped b0 file0 n0 { s with pc := pc, view := view, seen := seen, sync := sync } b :=
  ⟨j.bad, j.pe, j.pop, j.cl, Nat.le_trans j.lo h1, h2, h3, h4, j.be, j.bl, j.file, j.below, j.above, j.mono⟩

theorem J.view_ok {s : St P} {b : Nat} (j : J T pub popped b0 file0 n0 s b) (room : pub.length < popped + n)
    (h : popped ≤ s.sync) : (viewOf s).Ok n (only pub) :=
  ⟨.inr j.pe, by show s.pub.length < s.popped + n; rw [j.pe, j.pop]; exact room, by show s.popped ≤ s.sync; rw [j.pop]; exact h,
    j.syn, by show s.seen ≤ s.pub.length; rw [j.pe]; exact j.seen⟩

theorem endIdx_ne (hs : n < 2147483648) (hn : 2 ≤ n) (m : Nat) : m % n ≠ endIdx := by
  have := Nat.mod_lt m (show 0 < n by omega)
  simp only [endIdx]
  omega

theorem pass (hn : 2 ≤ n) (hs : n < 2147483648) (ha : RecOk T n arr) (hpub : arr pub) (room : pub.length < popped + n)
    (h0 : 0 < n0) (d m cnt : Nat) (s : St P) (b : Nat) (hd : d = pub.length - m) (j : J T pub popped b0 file0 n0 s b)
    (hpc : s.pc = .run (.test (m % n) m cnt) (testP hw.good (m % n))) (hsy : pub.length ≤ s.sync) (hm : popped ≤ m) (hmb : m ≤ b)
    (hml : m < pub.length) : ∃ t b', To T n hw s t ∧ J T pub popped b0 file0 n0 t b' ∧ t.pc = .want ∧ b ≤ b' ∧
      (cnt < 1000 → b < pub.length → b < b') := by
  induction d generalizing m cnt s b with
  | zero => omega
  | succ d ih =>
    have hne : pub ≠ [] := by intro h; rw [h] at hml; simp at hml
    have jsyn := j.syn; have jseen := j.seen
    have hv := j.view_ok (n := n) room (by omega)
    obtain ⟨sn, sy, r, g1, g2, g3, g4⟩ := call (T := T) (hw := hw) (kk := .test (m % n) m cnt) trivial
      (plain_test hw.good (m % n)) s j.bad hpc hv
      (Q := fun v r => r = some 0 ∧ pub.length ≤ v.sync) (by
        refine wp_bind T .binary n (fhw hw) (only pub) hv (wp_conseq T .binary n (fhw hw) (only pub)
          (good_spec hn hs (viewOf s) m (by show s.popped ≤ m; rw [j.pop]; exact hm)
            (by show m < s.seen; omega)) ?_)
        rintro v' _ f1 rfl v'' f2
        have := (f1.trans f2).sync
        exact ⟨rfl, Nat.le_trans hsy this⟩)
    subst g3
    have g4 : pub.length ≤ sy := g4
    have g2m : sy ≤ sn := g2.mid
    have g2h : sn ≤ pub.length := by have := g2.high; rw [← j.pe]; exact this
    by_cases hc : cnt < 1000
    · -- the body
      obtain ⟨a, hx⟩ : ∃ a, pub[m]? = some a := ⟨_, List.getElem?_eq_getElem hml⟩
      have e1 : recNext T n hw { s with pc := .run (.test (m % n) m cnt) (.ret (some 0)), seen := sn, sync := sy } =
          some { s with pc := .body (m % n) m cnt, seen := sn, sync := sy } := by
        simp [recNext, j.bad, finish, hc]
      have hread : m % n < n ∧ number n s.popped (m % n) = m ∧ m < sy :=
        ⟨Nat.mod_lt _ (by omega), by rw [j.pop]; exact number_slot (by omega) _ _ hm (by omega), by omega⟩
      have e2 : recNext T n hw { s with pc := .body (m % n) m cnt, seen := sn, sync := sy } =
          some (record T n hw { s with pc := .body (m % n) m cnt, seen := sn, sync := sy } (m % n) m cnt a) := by
        simp only [recNext, j.bad, hread, and_self, if_true, j.pe, hx]
        rfl
      -- after the body
      obtain ⟨s3, b3, c3, hs3, j3, p3, sy3, hb3, hbb, hgrow⟩ : ∃ s3 b3 c3,
          record T n hw { s with pc := .body (m % n) m cnt, seen := sn, sync := sy } (m % n) m cnt a = s3 ∧
          J T pub popped b0 file0 n0 s3 b3 ∧ s3.pc = .run (.inc (m % n) m c3) (incP hw.good n (m % n)) ∧
          pub.length ≤ s3.sync ∧ m < b3 ∧ b ≤ b3 ∧ (b = m → b < b3) ∧ (b ≠ m → c3 = cnt ∧ b3 = b) := by
        have hjs := j.set (.body (m % n) m cnt) s.view sn sy (Nat.le_refl _) j.hi g2m g2h
        by_cases hts : T.ts a ≥ s.next
        · have hmb' : m = b := by
            rcases Nat.lt_or_ge m b with h | h
            · have := j.below m a h hx; omega
            · omega
          subst hmb'
          refine ⟨_, m + 1, cnt + 1, rfl, ?_, ?_, ?_, by omega, by omega, fun _ => by omega, fun h => absurd rfl h⟩
          · have hpos := (ha.pos _ hpub a (List.mem_of_getElem? hx)).2
            have hjb0 := j.be; have hmono := j.mono
            unfold record
            rw [if_pos hts]
            refine ⟨j.bad, j.pe, j.pop, j.cl, j.lo, j.hi, g2m, g2h, by omega, by omega, ?_, ?_, ?_, ?_⟩
            · show s.file ++ [a] = _
              rw [j.file, List.append_assoc]
              congr 1
              obtain ⟨hl, he⟩ := List.getElem?_eq_some_iff.1 hx
              rw [List.take_succ_eq_append_getElem hl, he, List.drop_append_of_le_length (by simp; omega)]
            · intro i x hi hix
              show T.ts x < T.ts a + span T a
              rcases Nat.lt_or_ge i m with h | h
              · have := ord_get ha hpub h hix hx; omega
              · have : i = m := by omega
                subst this; rw [hx] at hix; injection hix with hix; subst hix; omega
            · intro i x hi hix
              exact ord_get ha hpub (show m < i by omega) hx hix
            · show n0 ≤ T.ts a + span T a
              omega
          · unfold record; rw [if_pos hts]
          · unfold record; rw [if_pos hts]; exact g4
        · have hmb' : m < b := by
            rcases Nat.lt_or_ge m b with h | h
            · exact h
            · have : m = b := by omega
              subst this
              have := j.above m a (Nat.le_refl _) hx; omega
          refine ⟨_, b, cnt, rfl, ?_, ?_, ?_, hmb', Nat.le_refl _, fun h => by omega, fun _ => ⟨rfl, rfl⟩⟩
          · unfold record
            rw [if_neg hts]
            exact ⟨j.bad, j.pe, j.pop, j.cl, j.lo, j.hi, g2m, g2h, j.be, j.bl, j.file, j.below, j.above, j.mono⟩
          · unfold record; rw [if_neg hts]
          · unfold record; rw [if_neg hts]; exact g4
      have to3 : To T n hw s s3 := by
        refine g1.trans (To.head e1 (To.head (s' := s3) ?_ (To.refl _)))
        rw [e2, hs3]
      have j3s := j3.syn; have j3n := j3.seen; have j3m := j3.mono; have j3b := j3.bl
      have hv3 := j3.view_ok (n := n) room (by omega)
      by_cases hlast : m + 1 = pub.length
      · obtain ⟨sn', sy', r', k1, k2, k3⟩ := call (T := T) (hw := hw) (kk := .inc (m % n) m c3) trivial
          (plain_inc hw.good (m % n)) s3 j3.bad p3 hv3 (Q := fun _ r => r = some endIdx) (by
            refine wp_bind T .binary n (fhw hw) (only pub) hv3 (wp_conseq T .binary n (fhw hw) (only pub)
              (inc_end hn hs hne (fhw hw) rfl (viewOf s3) j3.pe hv3 m (by show s3.popped ≤ m; rw [j3.pop]; exact hm)
                (by show m < s3.seen; omega) hlast) ?_)
            rintro v' _ f1 rfl v'' f2
            rfl)
        subst k3
        have k2m : sy' ≤ sn' := k2.mid
        have k2h : sn' ≤ pub.length := by have := k2.high; rw [← j3.pe]; exact this
        refine ⟨{ s3 with pc := .want, seen := sn', sync := sy' }, b3, to3.trans (k1.trans (To.head ?_ (To.refl _))),
          j3.set _ s3.view sn' sy' (Nat.le_refl _) j3.hi k2m k2h, rfl, hbb, ?_⟩
        · have hz : ¬ s3.next = 0 := by omega
          simp only [recNext, j3.bad, finish, toTest, if_true, again, if_neg hz]
          rfl
        · intro _ hbl
          by_cases e : b = m
          · exact hgrow.1 e
          · omega
      · obtain ⟨sn', sy', r', k1, k2, k3, k4⟩ := call (T := T) (hw := hw) (kk := .inc (m % n) m c3) trivial
          (plain_inc hw.good (m % n)) s3 j3.bad p3 hv3 (Q := fun v r => r = some ((m + 1) % n) ∧ pub.length ≤ v.sync) (by
            refine wp_bind T .binary n (fhw hw) (only pub) hv3 (wp_conseq T .binary n (fhw hw) (only pub)
              (inc_spec hn hs (viewOf s3) hv3 m (by show s3.popped ≤ m; rw [j3.pop]; exact hm)
                (by show m + 1 < s3.seen; omega)) ?_)
            rintro v' _ f1 rfl v'' f2
            have := (f1.trans f2).sync
            exact ⟨rfl, Nat.le_trans sy3 this⟩)
        subst k3
        have k2m : sy' ≤ sn' := k2.mid
        have k4 : pub.length ≤ sy' := k4
        have k2h : sn' ≤ pub.length := by have := k2.high; rw [← j3.pe]; exact this
        have hstep : (m + 1) % n ≠ m % n := by
          intro e
          have h1 := number_slot (show 0 < n by omega) m (m + 1) (by omega) (by omega)
          have h2 := number_slot (show 0 < n by omega) m m (by omega) (by omega)
          rw [e] at h1
          omega
        obtain ⟨t, b', q1, q2, q3, q4, q5⟩ := ih (m + 1) c3
          { s3 with pc := .run (.test ((m + 1) % n) (m + 1) c3) (testP hw.good ((m + 1) % n)), seen := sn', sync := sy' } b3
          (by omega) (j3.set _ s3.view sn' sy' (Nat.le_refl _) j3.hi k2m k2h) rfl k4 (by omega) (by omega) (by omega)
        refine ⟨t, b', to3.trans (k1.trans (To.head ?_ q1)), q2, q3, by omega, ?_⟩
        · simp only [recNext, j3.bad, finish, toTest, if_neg (endIdx_ne hs hn (m + 1)), if_neg hstep]
          rfl
        · intro _ hbl
          by_cases e : b = m
          · have := hgrow.1 e; omega
          · obtain ⟨e1, e2⟩ := hgrow.2 e
            have := q5 (by omega) (by omega)
            omega
    · -- the limit
      refine ⟨{ s with pc := .want, seen := sn, sync := sy }, b, g1.trans (To.head ?_ (To.refl _)),
        j.set _ s.view sn sy (Nat.le_refl _) j.hi g2m g2h, rfl, Nat.le_refl _, fun h => absurd h hc⟩
      have hmono := j.mono
      have hz : ¬ s.next = 0 := by omega
      simp only [recNext, j.bad, finish, if_neg hc, again, if_neg hz]
      rfl

/-- One pass: from the lookup to the next one. -/
theorem round (hn : 2 ≤ n) (hs : n < 2147483648) (ha : RecOk T n arr) (hpub : arr pub) (room : pub.length < popped + n)
    (h0 : 0 < n0) (a : P) (hold : pub[popped]? = some a) (hle : T.ts a ≤ n0) (s : St P) (b : Nat)
    (j : J T pub popped b0 file0 n0 s b) (hpc : s.pc = .want) (hb : b < pub.length) :
    ∃ t b', To T n hw s t ∧ J T pub popped b0 file0 n0 t b' ∧ t.pc = .want ∧ b < b' := by
  have hne : pub ≠ [] := by intro h; rw [h] at hb; simp at hb
  have jm := j.mono; have jlo := j.lo; have jhi := j.hi; have jsyn := j.syn; have jseen := j.seen
  have e0 : recNext T n hw s = some { s with
      pc := .run .look (lookP T n s.next), seen := max s.seen s.view, sync := max s.sync s.view } := by
    simp only [recNext, j.bad, hpc, j.cl]
    rfl
  have j1 := j.set (.run .look (lookP T n s.next)) s.view (max s.seen s.view) (max s.sync s.view) (Nat.le_refl _) j.hi
    (by omega) (by omega)
  generalize hs1 : ({ s with pc := .run .look (lookP T n s.next), seen := max s.seen s.view, sync := max s.sync s.view } : St P) = s1
    at e0 j1
  have en : s1.next = s.next := by rw [← hs1]
  have ep : s1.pc = .run .look (lookP T n s.next) := by rw [← hs1]
  have hv1 := j1.view_ok (n := n) room (by rw [← hs1]; show popped ≤ max s.sync s.view; omega)
  have hok := only_ok ha.ok hpub
  obtain ⟨sn, sy, r, g1, g2, m, x, g3, g4, g5, g6, g7, g8⟩ := call (T := T) (hw := hw) (kk := .look) trivial
    (plain_look s.next) s1 j1.bad ep hv1 (Q := fun v r => ∃ m x, r = some (m % n) ∧ popped ≤ m ∧ m < pub.length ∧
      pub[m]? = some x ∧ T.ts x ≤ s.next ∧ pub.length ≤ v.sync) (by
      refine wp_bind T .binary n (fhw hw) (only pub) hv1 (wp_conseq T .binary n (fhw hw) (only pub)
        (lowerBound_all hn hok (viewOf s1) hv1 s.next (.inr rfl) a
          (by show s1.pub[s1.popped]? = some a; rw [j1.pe, j1.pop]; exact hold) (by omega)) ?_)
      rintro v' i f1 ⟨jj, m, q1, q2, q3, q4, rfl, ⟨⟨x, hx, hxt⟩, -⟩, q6⟩ v'' f2
      have e1 := only_eq hne j1.pe f1
      have hl : pub.length ≤ jj := by have := q6 rfl; rw [← j1.pe]; exact this
      have hsync := f2.sync
      have hmid := f1.ok.mid; have hhigh := f1.ok.high
      rw [e1] at hhigh
      have q3 : popped ≤ m := by rw [← j1.pop]; exact q3
      have ep' : (viewOf s1).popped = popped := j1.pop
      rw [stored_get, e1, ep', if_pos (by omega), show popped + (m - popped) = m by omega] at hx
      exact ⟨m, x, rfl, q3, by omega, hx, hxt, by omega⟩)
  subst g3
  have g8 : pub.length ≤ sy := g8
  have g2m : sy ≤ sn := g2.mid
  have g2h : sn ≤ pub.length := by have := g2.high; rw [← j1.pe]; exact this
  have hmb : m ≤ b := by
    rcases Nat.lt_or_ge b m with h | h
    · obtain ⟨y, hy⟩ : ∃ y, pub[b]? = some y := ⟨_, List.getElem?_eq_getElem hb⟩
      have h1 := j.above b y (Nat.le_refl _) hy
      have h2 := ord_get ha hpub h hy g6
      have h3 := (ha.pos _ hpub y (List.mem_of_getElem? hy)).2
      omega
    · exact h
  have e9 : number n s1.popped (m % n) = m := by rw [j1.pop]; exact number_slot (by omega) _ _ g4 (by omega)
  have j1hi := j1.hi
  obtain ⟨t, b', q1, q2, q3, q4, q5⟩ := pass (hw := hw) hn hs ha hpub room h0 _ m 0
    { s1 with pc := .run (.test (m % n) m 0) (testP hw.good (m % n)), view := max s1.view sy, seen := sn, sync := sy } b rfl
    (j1.set _ (max s1.view sy) sn sy (by omega) (by omega) g2m g2h) rfl g8 g4 hmb g5
  refine ⟨t, b', To.head e0 (g1.trans (To.head ?_ q1)), q2, q3, q5 (by omega) hb⟩
  simp only [recNext, j1.bad, finish, toTest, if_neg (endIdx_ne hs hn m), e9]
  rfl

theorem catch_up (hn : 2 ≤ n) (hs : n < 2147483648) (ha : RecOk T n arr) (hpub : arr pub) (room : pub.length < popped + n)
    (h0 : 0 < n0) (a : P) (hold : pub[popped]? = some a) (hle : T.ts a ≤ n0) (d : Nat) (s : St P) (b : Nat)
    (hd : pub.length - b ≤ d) (j : J T pub popped b0 file0 n0 s b) (hpc : s.pc = .want) :
    ∃ t, To T n hw s t ∧ J T pub popped b0 file0 n0 t pub.length ∧ t.pc = .want := by
  induction d generalizing s b with
  | zero =>
    have := j.bl
    have : b = pub.length := by omega
    subst this
    exact ⟨s, To.refl s, j, hpc⟩
  | succ d ih =>
    have := j.bl
    by_cases hb : b < pub.length
    · obtain ⟨t, b', q1, q2, q3, q4⟩ := round (hw := hw) hn hs ha hpub room h0 a hold hle s b j hpc hb
      obtain ⟨u, r1, r2, r3⟩ := ih t b' (by omega) q2 q3
      exact ⟨u, q1.trans r1, r2, r3⟩
    · have : b = pub.length := by omega
      subst this
      exact ⟨s, To.refl s, j, hpc⟩

end

theorem filter_split (l : List P) (b : Nat) (p : P → Bool) (h1 : ∀ (i : Nat) (x : P), i < b → l[i]? = some x → p x = false)
    (h2 : ∀ (i : Nat) (x : P), b ≤ i → l[i]? = some x → p x = true) : l.filter p = l.drop b := by
  conv => lhs; rw [← List.take_append_drop b l]
  rw [List.filter_append, List.filter_eq_nil_iff.2, List.filter_eq_self.2, List.nil_append]
  · intro x hx
    obtain ⟨i, hi⟩ := List.mem_iff_getElem?.1 hx
    rw [List.getElem?_drop] at hi
    exact h2 _ x (by omega) hi
  · intro x hx
    obtain ⟨i, hi⟩ := List.mem_iff_getElem?.1 hx
    rw [List.getElem?_take] at hi
    split at hi
    · simp [h1 i x (by assumption) hi]
    · cases hi

/-- **C112 (a recording left alone, partial)** In every state that can occur in which the recording thread is between two passes, no
cleanup is under way and the oldest stored payload does not begin after the recording's position: if the other threads pause and
loads return the present values, the recording writes all payloads received that begin at or after its position, in order and
nothing else, without anything undefined, whatever the memory orders. Missing: the first position and a position older than
everything stored (counterexample), and progress while the other threads go on. -/
theorem C112_catches_up_partial (T : PayloadType P) (n : Nat) (hn : 2 ≤ n) (hs : n < 2147483648) (hw : Hw) (arr : List P → Prop)
    (ha : RecOk T n arr) (s : St P) (h : Reach T n hw arr s) (hb : s.bad = false) (hpc : s.pc = .want) (hc : s.cleaning = false)
    (a : P) (hold : s.pub[s.popped]? = some a) (hle : T.ts a ≤ s.next) :
    ∃ N t, run T n hw N s = t ∧ t.bad = false ∧ t.pub = s.pub ∧ t.popped = s.popped ∧ t.pc = .want ∧
      t.file = s.file ++ s.pub.filter (fun x => decide (s.next ≤ T.ts x)) := by
  have inv := inv_reach hn ha h
  have hpos := (ha.pos _ inv.ar a (List.mem_of_getElem? hold)).1
  rcases inv.pos with ⟨e, -⟩ | ⟨a0, b, q⟩
  · omega
  obtain ⟨t, ⟨N, hN⟩, j, hw'⟩ := catch_up (hw := hw) (pub := s.pub) (popped := s.popped) (b0 := b) (n0 := s.next)
    (file0 := s.file) hn hs ha inv.ar inv.room (by omega) a hold hle _ s b (Nat.le_refl _)
    ⟨hb, rfl, rfl, hc, inv.lo, inv.hi, inv.syn, inv.seen, Nat.le_refl _, q.bl, by simp, q.below, q.above, Nat.le_refl _⟩ hpc
  refine ⟨N, t, hN, j.bad, j.pe, j.pop, hw', ?_⟩
  rw [j.file, List.take_length, filter_split s.pub b]
  · intro i x hi hx
    have := q.below i x hi hx
    simp; omega
  · intro i x hi hx
    have := q.above i x hi hx
    simpa using this

/-- The recording has written payload 1000 and is about to look for the next one when 1300 and 1600 arrive; orders as in the code. -/
def waiting : St Nat :=
  let s := run wibLike 4 ⟨false, false, .relaxed, .relaxed, false⟩ 19 (begin_ [1000] false)
  { s with pub := [1000, 1300, 1600] }

theorem waiting_reach : Reach wibLike 4 ⟨false, false, .relaxed, .relaxed, false⟩ wibs waiting := by
  have r0 : Reach wibLike 4 ⟨false, false, .relaxed, .relaxed, false⟩ wibs (begin_ [1000] false) :=
    .init [1000] 0 0 false false wibs_list.1 (by decide) (by decide) (by decide) (by simp)
  have r1 := run_reach (m := 19) r0
  have r2 := Reach.step r1 (.publish _ 1300 wibs_list.2.1 (by decide +kernel))
  exact Reach.step r2 (.publish _ 1600 wibs_list.2.2 (by decide +kernel))

example : ∃ N t, run wibLike 4 ⟨false, false, .relaxed, .relaxed, false⟩ N waiting = t ∧ t.bad = false ∧ t.file = [1000, 1300, 1600] := by
  obtain ⟨N, t, h1, h2, -, -, -, h3⟩ := C112_catches_up_partial wibLike 4 (by decide) (by decide) _ wibs (wibs_ok 4) waiting
    waiting_reach (by decide +kernel) (by rfl) (by decide +kernel) 1000 (by decide +kernel) (by decide +kernel)
  exact ⟨N, t, h1, h2, h3.trans (by decide +kernel)⟩

/-- **C112 (lost)** The condition of `C112_catches_up_partial` cannot be dropped: if the oldest stored payload begins after the
recording's position and no removal is pending, the recording writes nothing more, whatever arrives and whatever the memory orders,
and the cleanup removes nothing more. -/
theorem C112_lost (T : PayloadType P) (n : Nat) (hn : 2 ≤ n) (hw : Hw) (arr : List P → Prop) (ha : RecOk T n arr) (s : St P)
    (h : Reach T n hw arr s) (hpc : s.pc = .want) (hc : s.armed = false) (h0 : s.next ≠ 0) (a : P)
    (hold : s.pub[s.popped]? = some a) (hlt : s.next < T.ts a) (t : St P) (l : Later T n hw arr s t) :
    t.file = s.file ∧ t.popped = s.popped := by
  have st : Stuck T n hw arr s.file s :=
    ⟨inv_reach hn ha h, h0, rfl, hc, .inl hpc, s.popped, a, Nat.le_refl _, hold, Nat.le_of_lt hlt, fun _ => hlt⟩
  obtain ⟨g1, g2⟩ := stuck_later hn ha st l
  exact ⟨g1.file, g2⟩

/-- **C112 (a gap ends a recording)** The recording has written payload 1000 and waits for the next one, at 1300; the cleanup removes
1000; after a gap the data go on at 1900. The recording writes nothing more until it ends, and the buffer is not cleaned any more.
This holds even with the orders repaired and a careful cleanup. -/
theorem C112_gap_counterexample : ∃ s, Reach wibLike 4 ⟨true, true, .acquire, .acquire, true⟩ wibs s ∧
    s.pub = [1000, 1900] ∧ s.file = [1000] ∧ s.bad = false ∧
    ∀ t, Later wibLike 4 ⟨true, true, .acquire, .acquire, true⟩ wibs s t → t.file = [1000] ∧ t.popped = 1 := by
  have w : wibs [1000, 1900] := ⟨by unfold Increasing; decide, by decide, by decide⟩
  have r : Reach wibLike 4 ⟨true, true, .acquire, .acquire, true⟩ wibs (begin_ [1000] false) :=
    .init [1000] 0 0 false false wibs_list.1 (by decide) (by decide) (by decide) (by simp)
  have r := run_reach (m := 19) r
  have r := Reach.step r (.cleanBegin _ (fun p h => by cases (show Pc.want = Pc.run .look p from h)))
  have r := Reach.step r (.arm _ 1000 (by rfl) (by rfl) (by decide +kernel))
  have r := Reach.step r (.pop _ (by rfl) (fun _ => trivial))
  have r := Reach.step r (.cleanEnd _ (by rfl))
  have r := Reach.step r (.publish _ 1900 w (by decide +kernel))
  refine ⟨_, r, by rfl, by rfl, by rfl, fun t l => ?_⟩
  obtain ⟨g1, g2⟩ := C112_lost wibLike 4 (by decide) _ wibs (wibs_ok 4) _ r (by rfl) (by rfl) (by decide +kernel) 1900 (by rfl)
    (by decide +kernel) t l
  exact ⟨g1, g2⟩

/-! ### Data without gap -/

/-- The position is the end of the last payload written. -/
def lastOk (T : PayloadType P) (s : St P) : Prop := ∀ z, s.file.getLast? = some z → s.next = T.ts z + span T z

theorem last_step {s s' : St P} (inv : Inv T n hw arr s) (h : lastOk T s) (st : Step T n hw arr s s') : lastOk T s' := by
  have noFile : ∀ (k : Pc P), s.pc = k → (∀ b, ¬ pcOk b k) → s.file = [] := by
    intro k e hk
    rcases inv.pos with ⟨-, e', -⟩ | ⟨a, b, q⟩
    · exact e'
    · exact absurd (e ▸ q.pc) (hk b)
  cases st with
  | ret k r hb hp =>
    cases k with
    | front m =>
      have hf := noFile _ hp (fun b => id)
      cases r <;> (intro z hz; simp [finish, hf] at hz)
    | look => cases r <;> exact h
    | test it m cnt => cases r <;> exact h
    | inc it m cnt => cases r <;> exact h
  | deref i m a hb hp hrd hx =>
    have hf := noFile _ hp (fun b => id)
    intro z hz
    simp [hf] at hz
  | body it m cnt a hb hp hrd hx =>
    unfold record
    split
    · intro z hz
      simp at hz
      subst hz
      rfl
    · exact h
  | _ => exact h

theorem last_reach (hn : 2 ≤ n) (ha : RecOk T n arr) {s : St P} (h : Reach T n hw arr s) : lastOk T s := by
  induction h with
  | init pub popped view cleaning armed har h1 h2 h3 h4 => intro z hz; simp at hz
  | step r st ih => exact last_step (inv_reach hn ha r) ih st

/-- Each payload begins where the one before ends. -/
def GapFree (T : PayloadType P) (pub : List P) : Prop :=
  ∀ (i : Nat) (x y : P), pub[i]? = some x → pub[i + 1]? = some y → T.ts y = T.ts x + span T x

/-- **C112 (data without gap, partial)** If the data received have no gap, a recording that has written something and is between two
passes while no cleanup is under way writes everything received since its first payload, if the other threads pause and loads
return the present values; whatever was removed before, and whatever the memory orders. Missing: recordings that have not yet
written anything (counterexample), progress while the other threads go on. -/
theorem C112_gap_free_partial (T : PayloadType P) (n : Nat) (hn : 2 ≤ n) (hs : n < 2147483648) (hw : Hw) (arr : List P → Prop)
    (ha : RecOk T n arr) (s : St P) (h : Reach T n hw arr s) (hb : s.bad = false) (hpc : s.pc = .want) (hc : s.cleaning = false)
    (hg : GapFree T s.pub) (hf : s.file ≠ []) :
    ∃ N t a, run T n hw N s = t ∧ t.bad = false ∧ t.pub = s.pub ∧ t.popped = s.popped ∧ t.file = s.pub.drop a ∧
      s.file <+: t.file := by
  have inv := inv_reach hn ha h
  rcases inv.pos with ⟨-, e, -⟩ | ⟨a0, b, q⟩
  · exact absurd e hf
  have hpb : s.popped ≤ b := by
    rcases q.cl with ⟨c, -⟩ | ⟨-, c, -⟩
    · exact c
    · exact absurd c hf
  have hab := q.ab; have hbl := q.bl
  have hall : s.file ++ s.pub.drop b = s.pub.drop a0 := by
    conv => rhs; rw [← List.take_append_drop b s.pub]
    rw [List.drop_append_of_le_length (by simp; omega), ← q.file]
  by_cases hst : s.popped < s.pub.length
  · obtain ⟨a, hold⟩ : ∃ a, s.pub[s.popped]? = some a := ⟨_, List.getElem?_eq_getElem hst⟩
    have hle : T.ts a ≤ s.next := by
      rcases Nat.lt_or_eq_of_le hpb with hlt | heq
      · exact Nat.le_of_lt (q.below _ a hlt hold)
      · have hl : 0 < s.file.length := List.length_pos_iff.2 hf
        have hl' : s.file.length = b - a0 := by rw [q.file]; simp; omega
        obtain ⟨z, hz⟩ : ∃ z, s.pub[b - 1]? = some z := ⟨_, List.getElem?_eq_getElem (by omega)⟩
        have hlast : s.file.getLast? = some z := by
          rw [List.getLast?_eq_getElem?, hl', q.file, List.getElem?_drop, List.getElem?_take, if_pos (by omega), ← hz]
          congr 1
          omega
        have h1 := last_reach hn ha h z hlast
        have h2 := hg (b - 1) z a hz (by rw [show b - 1 + 1 = s.popped by omega]; exact hold)
        omega
    obtain ⟨N, t, g1, g2, g3, g4, -, g5⟩ := C112_catches_up_partial T n hn hs hw arr ha s h hb hpc hc a hold hle
    refine ⟨N, t, a0, g1, g2, g3, g4, ?_, ?_⟩
    · rw [g5, filter_split s.pub b, hall]
      · intro i x hi hx
        have := q.below i x hi hx
        simp; omega
      · intro i x hi hx
        have := q.above i x hi hx
        simpa using this
    · rw [g5]; exact List.prefix_append _ _
  · refine ⟨0, s, a0, rfl, hb, rfl, rfl, ?_, List.prefix_refl _⟩
    have : b = s.pub.length := by omega
    rw [← hall, this, List.drop_length, List.append_nil]

/-- The hypotheses are met: as in `waiting`, with 1000 removed. -/
example : ∃ s, Reach wibLike 4 ⟨false, false, .relaxed, .relaxed, false⟩ wibs s ∧ s.bad = false ∧ s.pc = .want ∧ s.cleaning = false ∧
    s.pub = [1000, 1300, 1600] ∧ GapFree wibLike s.pub ∧ s.popped = 1 ∧ s.file = [1000] := by
  have r := waiting_reach
  have r := Reach.step r (.cleanBegin _ (fun p h => by cases (show Pc.want = Pc.run .look p from h)))
  have r := Reach.step r (.arm _ 1000 (by rfl) (by rfl) (by decide +kernel))
  have r := Reach.step r (.pop _ (by rfl) (fun _ => trivial))
  have r := Reach.step r (.cleanEnd _ (by rfl))
  refine ⟨_, r, by rfl, by rfl, by rfl, by rfl, ?_, by rfl, by rfl⟩
  intro i x y h1 h2
  have h1 : [1000, 1300, 1600][i]? = some x := h1
  have h2 : [1000, 1300, 1600][i + 1]? = some y := h2
  match i, h1, h2 with
  | 0, h1, h2 => injection h1 with h1; injection h2 with h2; subst h1 h2; rfl
  | 1, h1, h2 => injection h1 with h1; injection h2 with h2; subst h1 h2; rfl
  | i + 2, h1, h2 => simp at h2

end Verif.ConcRec
