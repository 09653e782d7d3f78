import Verif.ConcRecModel
import Verif.ConcReqProps
/- Property C112: a recording that runs while payloads arrive and cleanups go on, load by load. -/
namespace Verif.ConcRec
open Verif.Ring Verif.Search Verif.DataReq Verif.ConcReq
open Verif.Record (span)

variable {P : Type} {T : PayloadType P} {n : Nat} {hw : Hw} {arr : List P → Prop}

/-- Which sequences of payloads may arrive: times increase, payloads do not overlap, and none is empty or begins at 0. -/
structure RecOk (T : PayloadType P) (n : Nat) (arr : List P → Prop) : Prop where
  ok : ArrOk T .binary n arr
  ord : ∀ l, arr l → l.Pairwise (fun a b => T.ts a + span T a ≤ T.ts b)
  pos : ∀ l, arr l → ∀ a ∈ l, 0 < T.ts a ∧ 0 < span T a

/-- The hardware in the sense of module ConcReq. -/
def chw (hw : Hw) : ConcReq.Hw := ⟨hw.strong, hw.fresh, .acquire, .relaxed, anyRequest⟩

theorem ord_get (h : RecOk T n arr) {l : List P} (hl : arr l) {i j : Nat} {a b : P} (hij : i < j) (ha : l[i]? = some a)
    (hb : l[j]? = some b) : T.ts a + span T a ≤ T.ts b := by
  obtain ⟨h1, e1⟩ := List.getElem?_eq_some_iff.1 ha
  obtain ⟨h2, e2⟩ := List.getElem?_eq_some_iff.1 hb
  have := List.pairwise_iff_getElem.1 (h.ord l hl) i j h1 h2 hij
  rw [e1, e2] at this
  exact this

/-! ### The lookup -/

/-- The result of the lookup of `t`. -/
def LookQ (T : PayloadType P) (n t : Nat) (v : View P) (r : Option Nat) : Prop :=
  ∃ i, r = some i ∧ (i = endIdx ∨ ∃ m a, v.popped ≤ m ∧ m < v.sync ∧ i = m % n ∧ v.pub[m]? = some a ∧ T.ts a ≤ t)

theorem look_spec (hn : 2 ≤ n) (ha : ArrOk T .binary n arr) (hw : ConcReq.Hw) (v : View P) (hv : v.Ok n arr) (t : Nat) :
    wp T .binary n hw arr (lookP T n t) v (LookQ T n t) := by
  refine wp_bind T .binary n hw arr hv ?_
  intro v1 f1 v2 f2 hf hsy
  have f := f1.trans f2
  have ok := f.ok
  have hsy := hsy (.inl rfl)
  have hlow := Nat.le_trans ok.low ok.mid; have hroom := ok.room; have hhigh := ok.high; have hp := f.pop
  have hr := ringOf_repr hn v2.pub v2.popped v2.seen hlow (by omega) hhigh
  obtain ⟨hwf, hi⟩ := ha.wf _ ok.arr
  rw [← hp]
  dsimp only
  by_cases he : v2.popped % n = v2.seen % n
  · rw [if_pos he]
    intro v3 f3 v4 f4
    exact ⟨endIdx, rfl, .inl rfl⟩
  · rw [if_neg he]
    have hlt : v2.popped < v2.seen := by
      rw [mod_eq_iff hn _ _ hlow (by omega)] at he; omega
    obtain ⟨a, h3'⟩ : ∃ a, v2.pub[v2.popped]? = some a := ⟨v2.pub[v2.popped], List.getElem?_eq_getElem (by omega)⟩
    have h0 : (stored v2.pub v2.popped v2.seen)[0]? = some a := by
      rw [stored_get, if_pos (by omega)]; exact h3'
    refine elem_spec hn v2 ok v2.popped (Nat.le_refl _) (by omega) _ _ ?_
    intro v3 x f3 hx
    rw [h3'] at hx
    injection hx with hx
    subst hx
    by_cases ht : t < T.ts a
    · rw [if_pos ht]
      intro v4 f4 v5 f5
      exact ⟨endIdx, rfl, .inl rfl⟩
    rw [if_neg ht]
    rcases C07_binary_search T.ts _ _ hr (sorted_stored hwf hi _ _) t n
      (by rw [stored_length _ _ _ hhigh]; omega) with ⟨hb, -⟩ | ⟨-, c, e, hc⟩
    · exfalso
      rcases hb with hb | ⟨b, hb, hlt⟩
      · rw [hb] at h0; simp at h0
      · rw [h0] at hb; injection hb with hb; subst hb; omega
    · have hl : (ringOf n v2.pub v2.popped v2.seen).load (v2.popped % n) = .ok a := by
        rw [ringOf_load, number_slot (by omega) _ _ (Nat.le_refl _) (by omega)]
        exact ⟨⟨Nat.mod_lt _ (by omega), by omega⟩, h3'⟩
      unfold Search.lowerBound at e
      simp only [show (ringOf n v2.pub v2.popped v2.seen).rd = v2.popped % n from rfl,
        show (ringOf n v2.pub v2.popped v2.seen).wr = v2.seen % n from rfl,
        show (ringOf n v2.pub v2.popped v2.seen).size = n from rfl, if_neg he, hl, Outcome.bind_ok,
        if_neg ht] at e
      rw [← ringOf_prefix f3.pre _ _ hhigh] at e
      have e' := e
      rw [show ringOf n v3.pub v2.popped v2.seen = ringOf n v3.pub v3.popped v2.seen by rw [f3.pop]] at e'
      refine wp_conseq T .binary n hw arr (search_spec T.ts t n _ _ v2.seen _ v3 f3.ok (hsy ▸ f3.sync) e') ?_
      rintro v4 i f4 rfl v5 f5
      obtain ⟨⟨x, hx, hxt⟩, -⟩ := hc
      rw [stored_get] at hx
      split at hx
      · rename_i hlt'
        have f25 := (f3.trans f4).trans f5
        have hps : v2.sync ≤ v5.sync := f25.sync
        refine ⟨_, rfl, .inr ⟨v2.popped + c, x, ?_, ?_, ?_, ?_, hxt⟩⟩
        · rw [f25.pop]; omega
        · omega
        · exact slot_mod (by omega) _ _ (by omega)
        · rw [f25.get (by omega)]; exact hx
      · simp at hx

/-! ### The invariant -/

/-- The recording thread has no iterator into the buffer. -/
def noCur : Pc P → Prop
  | .run (.test _ _ _) _ => False
  | .run (.inc _ _ _) _ => False
  | .body _ _ _ => False
  | _ => True

/-- Where the thread may be with the first `b` payloads behind it. -/
def pcOk (b : Nat) : Pc P → Prop
  | .run (.front _) _ => False
  | .run .look _ => True
  | .run (.test _ m _) _ => m ≤ b
  | .run (.inc _ m _) _ => m < b
  | .deref _ _ => False
  | .want => True
  | .body _ m _ => m ≤ b

/-- The recording has a position: the payloads from number `a` to `b - 1` have been written, number `b` is next. -/
structure Pos (T : PayloadType P) (s : St P) (a b : Nat) : Prop where
  ne : s.next ≠ 0
  ab : a ≤ b
  bl : b ≤ s.pub.length
  file : s.file = (s.pub.take b).drop a
  below : ∀ (i : Nat) (x : P), i < b → s.pub[i]? = some x → T.ts x < s.next
  above : ∀ (i : Nat) (x : P), b ≤ i → s.pub[i]? = some x → s.next ≤ T.ts x
  last : b = s.pub.length → ∃ z, 0 < b ∧ s.pub[b - 1]? = some z ∧ s.next = T.ts z + span T z
  pc : pcOk b s.pc
  cl : (s.popped ≤ b ∧ (s.armed = true → s.popped < b ∨ (s.pc = .want ∧ s.file = []))) ∨
    (b < s.popped ∧ s.file = [] ∧ s.armed = false ∧ noCur s.pc)

structure Inv (T : PayloadType P) (n : Nat) (hw : Hw) (arr : List P → Prop) (s : St P) : Prop where
  ar : arr s.pub
  lo : s.popped ≤ s.view
  hi : s.view ≤ s.pub.length
  room : s.pub.length < s.popped + n
  syn : s.sync ≤ s.seen
  seen : s.seen ≤ s.pub.length
  arm : s.armed = true → s.cleaning = true ∧ s.popped < s.pub.length
  look : ∀ p, s.pc = .run .look p → s.cleaning = false ∧ s.popped ≤ s.sync ∧
    wp T .binary n (chw hw) arr p ⟨s.pub, s.popped, s.seen, s.sync⟩ (LookQ T n s.next)
  frontM : ∀ m p, s.pc = .run (.front m) p → m ≤ s.popped
  derefM : ∀ i m, s.pc = .deref i m → m ≤ s.popped
  pos : (s.next = 0 ∧ s.file = [] ∧ noCur s.pc) ∨ ∃ a b, Pos T s a b

/-- Steps that only move the recording thread on. -/
theorem Inv.move {s : St P} (inv : Inv T n hw arr s) (pc' : Pc P) (view' seen' sync' : Nat)
    (h1 : s.view ≤ view') (h2 : view' ≤ s.pub.length) (h3 : sync' ≤ seen') (h4 : seen' ≤ s.pub.length)
    (hl : ∀ p, pc' = .run .look p → s.cleaning = false ∧ s.popped ≤ sync' ∧
      wp T .binary n (chw hw) arr p ⟨s.pub, s.popped, seen', sync'⟩ (LookQ T n s.next))
    (hf : ∀ m p, pc' = .run (.front m) p → m ≤ s.popped) (hd : ∀ i m, pc' = .deref i m → m ≤ s.popped)
    (hc : s.next = 0 → noCur s.pc → noCur pc')
    (hp : ∀ a b, Pos T s a b → pcOk b pc' ∧ (b < s.popped → s.file = [] → noCur s.pc → noCur pc') ∧
      (s.pc = .want → pc' = .want ∨ s.armed = false)) :
    Inv T n hw arr { s with pc := pc', view := view', seen := seen', sync := sync' } where
  ar := inv.ar
  lo := Nat.le_trans inv.lo h1
  hi := h2
  room := inv.room
  syn := h3
  seen := h4
  arm := inv.arm
  look := hl
  frontM := hf
  derefM := hd
  pos := by
    rcases inv.pos with ⟨e1, e2, e3⟩ | ⟨a, b, p⟩
    · exact .inl ⟨e1, e2, hc e1 e3⟩
    · obtain ⟨g1, g2, g3⟩ := hp a b p
      refine .inr ⟨a, b, ⟨p.ne, p.ab, p.bl, p.file, p.below, p.above, p.last, g1, ?_⟩⟩
      rcases p.cl with ⟨c1, c2⟩ | ⟨c1, c2, c3, c4⟩
      · refine .inl ⟨c1, fun har => ?_⟩
        rcases c2 har with c | ⟨c, c'⟩
        · exact .inl c
        · rcases g3 c with g | g
          · exact .inr ⟨g, c'⟩
          · have har : s.armed = true := har
            rw [g] at har; cases har
      · exact .inr ⟨c1, c2, c3, g2 c1 c2 c4⟩

theorem again_noCur (s : St P) : noCur (again s) := by
  unfold again
  split <;> trivial

theorem again_look (s : St P) (p : Prog P (Option Nat)) : again s ≠ .run .look p := by
  unfold again
  split <;> simp

theorem again_front {s : St P} {m : Nat} {p : Prog P (Option Nat)} (h : again s = .run (.front m) p) : m = 0 := by
  unfold again at h
  split at h <;> simp at h
  exact h.1.symm

theorem again_deref {s : St P} {i m : Nat} : again s ≠ .deref i m := by
  unfold again
  split <;> simp

theorem again_ok {s : St P} (h : s.next ≠ 0) (b : Nat) : pcOk b (again s) := by
  simp [again, h, pcOk]

/-- Back to the head of the outer loop. -/
theorem Inv.again {s : St P} (inv : Inv T n hw arr s) (hw' : s.pc ≠ .want) (view' : Nat) (h1 : s.view ≤ view')
    (h2 : view' ≤ s.pub.length) : Inv T n hw arr { s with pc := again s, view := view' } := by
  refine inv.move (ConcRec.again s) view' s.seen s.sync h1 h2 inv.syn inv.seen ?_ ?_ ?_ ?_ ?_
  · intro p e; exact absurd e (again_look s p)
  · intro m p e; rw [again_front e]; omega
  · intro i m e; exact absurd e again_deref
  · intro _ _; exact again_noCur s
  · intro a b p
    exact ⟨again_ok p.ne b, fun _ _ _ => again_noCur s, fun e => absurd e hw'⟩

theorem toTest_cases (o : Order) (s : St P) (it m cnt : Nat) : toTest o s it m cnt = again s ∨
    (it ≠ endIdx ∧ toTest o s it m cnt = .run (.test it m cnt) (testP o it)) := by
  unfold toTest
  split
  · exact .inl rfl
  · exact .inr ⟨by assumption, rfl⟩

theorem inv_step (hn : 2 ≤ n) (ha : RecOk T n arr) {s s' : St P} (inv : Inv T n hw arr s) (st : Step T n hw arr s s') :
    Inv T n hw arr s' := by
  have hlo := inv.lo; have hhi := inv.hi; have hroom := inv.room; have hsyn := inv.syn; have hseen := inv.seen
  cases st with
  | publish p harr hc =>
    have hpre : s.pub <+: s.pub ++ [p] := List.prefix_append _ _
    refine ⟨harr, hlo, by simp; omega, by simpa using hc, hsyn, by simp; omega, ?_, ?_, inv.frontM, inv.derefM, ?_⟩
    · intro h; have := inv.arm h; exact ⟨this.1, by simp; omega⟩
    · intro q hq
      obtain ⟨g1, g2, g3⟩ := inv.look q hq
      refine ⟨g1, g2, ?_⟩
      have ok : (⟨s.pub, s.popped, s.seen, s.sync⟩ : View P).Ok n arr := ⟨inv.ar, hroom, g2, hsyn, hseen⟩
      refine wp_fut T .binary n (chw hw) arr (w := ⟨s.pub ++ [p], s.popped, s.seen, s.sync⟩) ok g3
        ⟨rfl, hpre, Nat.le_refl _, Nat.le_refl _, ⟨harr, ?_, g2, hsyn, ?_⟩⟩
      · simpa using hc
      · simp; omega
    · rcases inv.pos with e | ⟨a, b, q⟩
      · exact .inl e
      · have hbl := q.bl
        refine .inr ⟨a, b, ⟨q.ne, q.ab, by simp; omega, ?_, ?_, ?_, ?_, q.pc, q.cl⟩⟩
        · rw [List.take_append_of_le_length q.bl]; exact q.file
        · intro i x hi hx
          rw [List.getElem?_append_left (by omega)] at hx
          exact q.below i x hi hx
        · intro i x hi hx
          have hi' : i < (s.pub ++ [p]).length := getElem?_lt hx
          simp at hi'
          by_cases hil : i < s.pub.length
          · rw [List.getElem?_append_left hil] at hx
            exact q.above i x hi hx
          · have e : i = s.pub.length := by omega
            rcases Nat.lt_or_eq_of_le hbl with hb | hb
            · obtain ⟨y, hy⟩ : ∃ y, s.pub[b]? = some y := ⟨s.pub[b], List.getElem?_eq_getElem hb⟩
              have h1 := q.above b y (Nat.le_refl _) hy
              have h2 := ord_get ha harr (show b < i by omega) (by rw [List.getElem?_append_left hb]; exact hy) hx
              show s.next ≤ T.ts x
              omega
            · obtain ⟨z, z1, z2, z3⟩ := q.last hb
              have h2 := ord_get ha harr (show b - 1 < i by omega)
                (by rw [List.getElem?_append_left (by omega)]; exact z2) hx
              show s.next ≤ T.ts x
              omega
        · intro e; simp at e; omega
  | cleanBegin h =>
    refine ⟨inv.ar, hlo, hhi, hroom, hsyn, hseen, ?_, ?_, inv.frontM, inv.derefM, ?_⟩
    · intro h'; exact ⟨rfl, (inv.arm h').2⟩
    · intro p hp; exact absurd hp (h p)
    · rcases inv.pos with e | ⟨a, b, q⟩
      · exact .inl e
      · exact .inr ⟨a, b, ⟨q.ne, q.ab, q.bl, q.file, q.below, q.above, q.last, q.pc, q.cl⟩⟩
  | cleanEnd h =>
    refine ⟨inv.ar, hlo, hhi, hroom, hsyn, hseen, ?_, ?_, inv.frontM, inv.derefM, ?_⟩
    · intro h'; exact absurd (h.symm.trans h') (by simp)
    · intro p hp; obtain ⟨_, g⟩ := inv.look p hp; exact ⟨rfl, g⟩
    · rcases inv.pos with e | ⟨a, b, q⟩
      · exact .inl e
      · exact .inr ⟨a, b, ⟨q.ne, q.ab, q.bl, q.file, q.below, q.above, q.last, q.pc, q.cl⟩⟩
  | others j h1 h2 =>
    exact inv.move s.pc j s.seen s.sync h1 h2 hsyn hseen inv.look inv.frontM inv.derefM (fun _ h => h)
      (fun a b p => ⟨p.pc, fun _ _ h => h, fun h => .inl h⟩)
  | arm a h h1 h2 =>
    refine ⟨inv.ar, hlo, hhi, hroom, hsyn, hseen, fun _ => ⟨h, getElem?_lt h1⟩, inv.look, inv.frontM, inv.derefM, ?_⟩
    rcases inv.pos with e | ⟨a', b, q⟩
    · exact .inl e
    · have hlt : s.popped < b := by
        rcases Nat.lt_or_ge s.popped b with hlt | hge
        · exact hlt
        · have := q.above _ _ hge h1; omega
      refine .inr ⟨a', b, ⟨q.ne, q.ab, q.bl, q.file, q.below, q.above, q.last, q.pc, .inl ⟨?_, fun _ => .inl hlt⟩⟩⟩
      show s.popped ≤ b
      omega
  | pop h hc =>
    obtain ⟨h1, h2⟩ := inv.arm h
    refine ⟨inv.ar, ?_, ?_, ?_, hsyn, hseen, ?_, ?_, ?_, ?_, ?_⟩
    · show s.popped + 1 ≤ max s.view (s.popped + 1); omega
    · show max s.view (s.popped + 1) ≤ s.pub.length; omega
    · show s.pub.length < s.popped + 1 + n; omega
    · intro h'; cases h'
    · intro p hp
      have := (inv.look p hp).1
      rw [h1] at this; cases this
    · intro m p hp; have := inv.frontM m p hp; show m ≤ s.popped + 1; omega
    · intro i m hp; have := inv.derefM i m hp; show m ≤ s.popped + 1; omega
    · rcases inv.pos with e | ⟨a', b, q⟩
      · exact .inl e
      · refine .inr ⟨a', b, ⟨q.ne, q.ab, q.bl, q.file, q.below, q.above, q.last, q.pc, ?_⟩⟩
        rcases q.cl with ⟨c1, c2⟩ | ⟨c1, c2, c3, c4⟩
        · rcases c2 h with c | ⟨c, c'⟩
          · exact .inl ⟨by show s.popped + 1 ≤ b; omega, fun h' => by cases h'⟩
          · rcases Nat.lt_or_eq_of_le c1 with c1 | c1
            · exact .inl ⟨by show s.popped + 1 ≤ b; omega, fun h' => by cases h'⟩
            · refine .inr ⟨by show b < s.popped + 1; omega, c', rfl, ?_⟩
              show noCur s.pc
              rw [c]; trivial
        · rw [h] at c3; cases c3
  | enter hb h hc =>
    have harm : s.armed = false := by
      cases e : s.armed with
      | false => rfl
      | true => have := (inv.arm e).1; rw [hc] at this; cases this
    refine inv.move (.run .look (lookP T n s.next)) s.view (max s.seen s.view) (max s.sync s.view) (Nat.le_refl _) hhi
      (by omega) (by omega) ?_ (by intro m p e; cases e) (by intro m p e; cases e) (fun _ _ => trivial)
      (fun a b p => ⟨trivial, fun _ _ _ => trivial, fun _ => .inr harm⟩)
    intro p e
    injection e with _ e
    subst e
    have ok : (⟨s.pub, s.popped, max s.seen s.view, max s.sync s.view⟩ : View P).Ok n arr :=
      ⟨inv.ar, hroom, by show s.popped ≤ max s.sync s.view; omega, by show max s.sync s.view ≤ max s.seen s.view; omega,
        by show max s.seen s.view ≤ s.pub.length; omega⟩
    exact ⟨hc, ok.low, look_spec hn ha.ok (chw hw) _ ok s.next⟩
  | loadW k o f j hb hp h1 h2 h3 =>
    generalize hy : (if o = .acquire ∨ hw.strong = true then max s.sync j else s.sync) = y
    have hy1 : s.sync ≤ y ∧ y ≤ j ∧ (o = .acquire ∨ hw.strong = true → y = j) := by
      rw [← hy]
      split
      · exact ⟨by omega, by omega, fun _ => by omega⟩
      · exact ⟨by omega, by omega, fun hc => absurd hc (by assumption)⟩
    refine inv.move (.run k (f (j % n))) s.view j y (Nat.le_refl _) hhi hy1.2.1 h2 ?_ ?_ ?_ ?_ ?_
    · intro p e
      injection e with e1 e2
      subst e1 e2
      obtain ⟨g1, g2, g3⟩ := inv.look _ hp
      have hpy : s.popped ≤ y := Nat.le_trans g2 hy1.1
      refine ⟨g1, hpy, ?_⟩
      exact g3 ⟨s.pub, s.popped, j, y⟩ ⟨rfl, List.prefix_refl _, h1, hy1.1, ⟨inv.ar, hroom, hpy, hy1.2.1, h2⟩⟩ h3 hy1.2.2
    · intro m p e
      injection e with e1 e2
      subst e1
      exact inv.frontM m _ hp
    · intro i m e; cases e
    · intro _ h
      rw [hp] at h
      cases k <;> exact h
    · intro a b q
      refine ⟨?_, ?_, ?_⟩
      · have := q.pc; rw [hp] at this; cases k <;> exact this
      · intro _ _ h; rw [hp] at h; cases k <;> exact h
      · intro h; rw [hp] at h; cases h
  | loadR k f r hb hp hr =>
    have hA : ∀ v : Nat, v ≤ afterR hw s k v ∧ (afterR hw s k v = v ∨ afterR hw s k v = max v s.popped) ∧
        (k = .look → afterR hw s k v = v) := by
      intro v
      unfold afterR
      cases k with
      | front m =>
        dsimp only
        split
        · exact ⟨by omega, .inr rfl, by intro h; cases h⟩
        · exact ⟨by omega, .inl rfl, by intro h; cases h⟩
      | _ => exact ⟨Nat.le_refl _, .inl rfl, fun _ => rfl⟩
    have hA2 : afterR hw s k s.sync ≤ afterR hw s k s.seen := by
      unfold afterR
      cases k with
      | front m =>
        dsimp only
        split <;> omega
      | _ => exact hsyn
    have hA3 : afterR hw s k s.seen ≤ s.pub.length := by
      rcases (hA s.seen).2.1 with e | e <;> rw [e] <;> omega
    refine inv.move (.run (markR s k) (f r)) s.view _ _ (Nat.le_refl _) hhi hA2 hA3 ?_ ?_ ?_ ?_ ?_
    · intro p e
      injection e with e1 e2
      have hk : k = .look := by cases k <;> simp [markR] at e1 ⊢
      subst hk e2
      obtain ⟨g1, g2, g3⟩ := inv.look _ hp
      rw [(hA s.seen).2.2 rfl, (hA s.sync).2.2 rfl, hr rfl]
      exact ⟨g1, g2, g3 _ (Fut.refl ⟨inv.ar, hroom, g2, hsyn, hseen⟩)⟩
    · intro m p e
      injection e with e1 e2
      cases k with
      | front m' => simp only [markR] at e1; injection e1 with e1; omega
      | _ => simp [markR] at e1
    · intro i m e; cases e
    · intro _ h
      rw [hp] at h
      cases k <;> exact h
    · intro a b q
      refine ⟨?_, ?_, ?_⟩
      · have := q.pc; rw [hp] at this; cases k <;> exact this
      · intro _ _ h; rw [hp] at h; cases k <;> exact h
      · intro h; rw [hp] at h; cases h
  | elem k i f a hb hp hi hs he =>
    refine inv.move (.run k (f a)) s.view s.seen s.sync (Nat.le_refl _) hhi hsyn hseen ?_ ?_ ?_ ?_ ?_
    · intro p e
      injection e with e1 e2
      subst e1 e2
      obtain ⟨g1, g2, g3⟩ := inv.look _ hp
      exact ⟨g1, g2, g3.2 _ a (Fut.refl ⟨inv.ar, hroom, g2, hsyn, hseen⟩) he⟩
    · intro m p e
      injection e with e1 e2
      subst e1
      exact inv.frontM m _ hp
    · intro i m e; cases e
    · intro _ h
      rw [hp] at h
      cases k <;> exact h
    · intro a b q
      refine ⟨?_, ?_, ?_⟩
      · have := q.pc; rw [hp] at this; cases k <;> exact this
      · intro _ _ h; rw [hp] at h; cases k <;> exact h
      · intro h; rw [hp] at h; cases h
  | race k i f hb hp hs =>
    refine ⟨inv.ar, hlo, hhi, hroom, hsyn, hseen, inv.arm, inv.look, inv.frontM, inv.derefM, ?_⟩
    rcases inv.pos with e | ⟨a, b, q⟩
    · exact .inl e
    · exact .inr ⟨a, b, ⟨q.ne, q.ab, q.bl, q.file, q.below, q.above, q.last, q.pc, q.cl⟩⟩
  | fail k hb hp =>
    refine ⟨inv.ar, hlo, hhi, hroom, hsyn, hseen, inv.arm, inv.look, inv.frontM, inv.derefM, ?_⟩
    rcases inv.pos with e | ⟨a, b, q⟩
    · exact .inl e
    · exact .inr ⟨a, b, ⟨q.ne, q.ab, q.bl, q.file, q.below, q.above, q.last, q.pc, q.cl⟩⟩
  | derefBad i m hb hp hr =>
    refine ⟨inv.ar, hlo, hhi, hroom, hsyn, hseen, inv.arm, inv.look, inv.frontM, inv.derefM, ?_⟩
    rcases inv.pos with e | ⟨a, b, q⟩
    · exact .inl e
    · exact .inr ⟨a, b, ⟨q.ne, q.ab, q.bl, q.file, q.below, q.above, q.last, q.pc, q.cl⟩⟩
  | bodyBad it m cnt hb hp hr =>
    refine ⟨inv.ar, hlo, hhi, hroom, hsyn, hseen, inv.arm, inv.look, inv.frontM, inv.derefM, ?_⟩
    rcases inv.pos with e | ⟨a, b, q⟩
    · exact .inl e
    · exact .inr ⟨a, b, ⟨q.ne, q.ab, q.bl, q.file, q.below, q.above, q.last, q.pc, q.cl⟩⟩
  | deref i m a hb hp hr hx =>
    obtain ⟨r1, r2, r3⟩ := hr
    have hm : m = s.popped := by
      have := inv.derefM i m hp
      have : s.popped ≤ number n s.popped i := by unfold number; omega
      omega
    obtain ⟨p1, p2⟩ := ha.pos _ inv.ar a (List.mem_of_getElem? hx)
    refine ⟨inv.ar, hlo, hhi, hroom, hsyn, hseen, inv.arm, (by intro p e; cases e), (by intro m p e; cases e),
      (by intro m p e; cases e), ?_⟩
    rcases inv.pos with ⟨e1, e2, e3⟩ | ⟨a', b, q⟩
    · have hml := getElem?_lt hx
      refine .inr ⟨m, m, ⟨by show T.ts a ≠ 0; omega, Nat.le_refl _, by show m ≤ s.pub.length; omega, ?_, ?_, ?_, ?_, trivial,
        .inl ⟨by show s.popped ≤ m; omega, fun _ => .inr ⟨rfl, e2⟩⟩⟩⟩
      · show s.file = _
        rw [e2, List.drop_take]; simp
      · intro j x hj hxj
        have := ord_get ha inv.ar hj hxj hx
        have := (ha.pos _ inv.ar x (List.mem_of_getElem? hxj)).2
        show T.ts x < T.ts a
        omega
      · intro j x hj hxj
        show T.ts a ≤ T.ts x
        rcases Nat.lt_or_eq_of_le hj with hj | hj
        · have := ord_get ha inv.ar hj hx hxj; omega
        · subst hj; rw [show s.pub[m]? = some a from hx] at hxj; injection hxj with e; rw [e]; exact Nat.le_refl _
      · intro e
        have e : m = s.pub.length := e
        omega
    · have := q.pc; rw [hp] at this; exact this.elim
  | body it m cnt a hb hp hr hx =>
    have hml := getElem?_lt hx
    obtain ⟨p1, p2⟩ := ha.pos _ inv.ar a (List.mem_of_getElem? hx)
    rcases inv.pos with ⟨e1, e2, e3⟩ | ⟨a', b, q⟩
    · rw [hp] at e3; exact e3.elim
    have hmb : m ≤ b := by have := q.pc; rw [hp] at this; exact this
    unfold record
    by_cases hge : T.ts a ≥ s.next
    · rw [if_pos hge]
      have hbm : m = b := by
        rcases Nat.lt_or_eq_of_le hmb with h | h
        · have := q.below m a h hx; omega
        · exact h
      subst hbm
      refine ⟨inv.ar, hlo, hhi, hroom, hsyn, hseen, inv.arm, (by intro p e; cases e), (by intro m p e; cases e),
        (by intro m p e; cases e), .inr ⟨a', m + 1, ⟨?_, ?_, ?_, ?_, ?_, ?_, ?_, ?_, ?_⟩⟩⟩
      · show T.ts a + span T a ≠ 0; omega
      · have := q.ab; omega
      · exact hml
      · show s.file ++ [a] = _
        have hab := q.ab
        rw [q.file, List.take_add_one, show s.pub[m]? = some a from hx]
        rw [List.drop_append_of_le_length (by simp; omega)]
        rfl
      · intro j x hj hxj
        show T.ts x < T.ts a + span T a
        rcases Nat.lt_or_eq_of_le (Nat.lt_succ_iff.1 hj) with h | h
        · have := q.below j x h hxj; omega
        · subst h; rw [show s.pub[j]? = some a from hx] at hxj; injection hxj with e; subst e; omega
      · intro j x hj hxj
        exact ord_get ha inv.ar hj hx hxj
      · intro _; exact ⟨a, by omega, hx, rfl⟩
      · show m < m + 1; omega
      · rcases q.cl with ⟨c1, c2⟩ | ⟨c1, c2, c3, c4⟩
        · exact .inl ⟨by show s.popped ≤ m + 1; omega, fun _ => .inl (by show s.popped < m + 1; omega)⟩
        · rw [hp] at c4; exact c4.elim
    · rw [if_neg hge]
      have hbm : m < b := by
        rcases Nat.lt_or_eq_of_le hmb with h | h
        · exact h
        · subst h; have := q.above m a (Nat.le_refl _) hx; omega
      refine inv.move _ s.view s.seen s.sync (Nat.le_refl _) hhi hsyn hseen (by intro p e; cases e) (by intro m p e; cases e)
        (by intro m p e; cases e) ?_ ?_
      · intro e; exact absurd e q.ne
      · intro a2 b2 q2
        refine ⟨?_, ?_, ?_⟩
        · show m < b2
          rcases Nat.lt_or_ge m b2 with h | h
          · exact h
          · have := q2.above m a h hx; omega
        · intro _ _ h; rw [hp] at h; exact h.elim
        · intro h; rw [hp] at h; cases h
  | ret k r hb hp =>
    have hnw : s.pc ≠ .want := by rw [hp]; simp
    cases k with
    | front m =>
      have hm := inv.frontM m _ hp
      rcases inv.pos with ⟨e1, e2, e3⟩ | ⟨a', b, q⟩
      · cases r with
        | none =>
          refine ⟨inv.ar, hlo, hhi, hroom, hsyn, hseen, inv.arm, (by intro p e; cases e), (by intro m p e; cases e),
            (by intro m p e; cases e), .inl ⟨rfl, e2, trivial⟩⟩
        | some i =>
          refine ⟨inv.ar, hlo, hhi, hroom, hsyn, hseen, inv.arm, (by intro p e; cases e), (by intro m p e; cases e),
            ?_, .inl ⟨e1, e2, trivial⟩⟩
          intro i' m' e
          injection e with e1 e2
          subst e2
          exact hm
      · have := q.pc; rw [hp] at this; exact this.elim
    | look =>
      obtain ⟨g1, g2, g3⟩ := inv.look _ hp
      obtain ⟨i, rfl, hi⟩ := g3 _ (Fut.refl ⟨inv.ar, hroom, g2, hsyn, hseen⟩)
      simp only [finish]
      rcases toTest_cases hw.good s i (number n s.popped i) 0 with e | ⟨e0, e⟩
      · rw [e]
        exact inv.again hnw _ (by omega) (by omega)
      · rw [e]
        rcases hi with hi | ⟨m, a, m1, m2, rfl, m4, m5⟩
        · exact absurd hi e0
        have m1 : s.popped ≤ m := m1
        have m2 : m < s.sync := m2
        have m4 : s.pub[m]? = some a := m4
        rw [number_slot (by omega) _ _ m1 (by omega)]
        refine inv.move _ _ s.seen s.sync (by omega) (by omega) hsyn hseen (by intro p e; cases e) (by intro m p e; cases e)
          (by intro m p e; cases e) ?_ ?_
        · intro e
          have := (ha.pos _ inv.ar a (List.mem_of_getElem? m4)).1
          omega
        · intro a' b q
          have hmb : m ≤ b := by
            rcases Nat.lt_or_ge b m with h | h
            · obtain ⟨y, hy⟩ : ∃ y, s.pub[b]? = some y := ⟨s.pub[b], List.getElem?_eq_getElem (by omega)⟩
              have h1 := q.above b y (Nat.le_refl _) hy
              have h2 := ord_get ha inv.ar h hy m4
              have h3 := (ha.pos _ inv.ar y (List.mem_of_getElem? hy)).2
              omega
            · exact h
          exact ⟨hmb, fun h => by omega, fun h => absurd h hnw⟩
    | test it m cnt =>
      cases r with
      | none => exact inv.again hnw _ (Nat.le_refl _) hhi
      | some x =>
        simp only [finish]
        by_cases hc : cnt < 1000
        · rw [if_pos hc]
          refine inv.move _ s.view s.seen s.sync (Nat.le_refl _) hhi hsyn hseen (by intro p e; cases e)
            (by intro m p e; cases e) (by intro m p e; cases e) ?_ ?_
          · intro _ h; rw [hp] at h; exact h.elim
          · intro a b q
            refine ⟨?_, ?_, fun h => absurd h hnw⟩
            · have := q.pc; rw [hp] at this; exact this
            · intro _ _ h; rw [hp] at h; exact h.elim
        · rw [if_neg hc]
          exact inv.again hnw _ (Nat.le_refl _) hhi
    | inc it m cnt =>
      cases r with
      | none => exact inv.again hnw _ (Nat.le_refl _) hhi
      | some it' =>
        simp only [finish]
        rcases toTest_cases hw.good s it' (if it' = it then m else m + 1) cnt with e | ⟨e0, e⟩
        · rw [e]; exact inv.again hnw _ (Nat.le_refl _) hhi
        · rw [e]
          refine inv.move _ s.view s.seen s.sync (Nat.le_refl _) hhi hsyn hseen (by intro p e; cases e)
            (by intro m p e; cases e) (by intro m p e; cases e) ?_ ?_
          · intro _ h; rw [hp] at h; exact h.elim
          · intro a b q
            refine ⟨?_, ?_, fun h => absurd h hnw⟩
            · have hq : m < b := by have := q.pc; rw [hp] at this; exact this
              show (if it' = it then m else m + 1) ≤ b
              split <;> omega
            · intro _ _ h; rw [hp] at h; exact h.elim

theorem inv_reach (hn : 2 ≤ n) (ha : RecOk T n arr) {s : St P} (h : Reach T n hw arr s) : Inv T n hw arr s := by
  induction h with
  | init pub popped view cleaning armed har h1 h2 h3 h4 =>
    refine ⟨har, h1, h2, h3, Nat.le_refl _, Nat.zero_le _, h4, (by intro p e; cases e), ?_, (by intro m p e; cases e),
      .inl ⟨rfl, rfl, trivial⟩⟩
    intro m p e
    injection e with e _
    injection e with e
    omega
  | step _ st ih => exact inv_step hn ha ih st

/-- **C112 (the file)** However the loads of the recording thread, arrivals and cleanups interleave, and whatever the memory
orders: as long as nothing undefined has happened (after that the thread does nothing more here), the payloads written are
consecutive payloads of those received, complete and in order, and everything received since the first of them is in the file or
still stored. -/
theorem C112_file (T : PayloadType P) (n : Nat) (hn : 2 ≤ n) (hw : Hw) (arr : List P → Prop) (ha : RecOk T n arr) (s : St P)
    (h : Reach T n hw arr s) : ∃ a, s.file = (s.pub.drop a).take s.file.length ∧
      (s.file ≠ [] → s.popped ≤ a + s.file.length) := by
  rcases (inv_reach hn ha h).pos with ⟨-, e, -⟩ | ⟨a, b, q⟩
  · exact ⟨0, by simp [e], fun h => absurd e h⟩
  · have hab := q.ab
    have hbl := q.bl
    have hl : s.file.length = b - a := by rw [q.file]; simp; omega
    refine ⟨a, ?_, ?_⟩
    · rw [hl]
      conv => lhs; rw [q.file]
      rw [List.drop_take]
    · intro hne
      rcases q.cl with ⟨c1, -⟩ | ⟨-, c2, -⟩
      · omega
      · exact absurd c2 hne

/-! ### No races -/

/-- A program that only loads indices ends, and then `Q` holds, whatever the loads of the read index return; `m` is a number of a
payload that is not removed meanwhile. -/
def wpF (n : Nat) (hw : Hw) (m : Nat) : Prog P (Option Nat) → Nat → Nat → (Nat → Option Nat → Prop) → Prop
  | .ret b, _, sync, Q => Q sync b
  | .loadR f, seen, sync, Q => ∀ r, wpF n hw m (f r) seen sync Q
  | .loadW o f, seen, sync, Q => ∀ j y, seen ≤ j → j < m + n → sync ≤ y → y ≤ j →
      (o = .acquire ∨ hw.strong = true → y = j) → wpF n hw m (f (j % n)) j y Q
  | _, _, _, _ => False

theorem test_spec (hg : hw.good = .acquire ∨ hw.strong = true) (m seen sync : Nat) (hm : m ≤ seen) :
    wpF n hw m (testP hw.good (m % n) : Prog P (Option Nat)) seen sync (fun y r => r ≠ none → m < y) := by
  intro r j y h1 h2 h3 h4 h5
  have h5 := h5 hg
  show _ → _
  intro hr
  rcases Nat.lt_or_ge m y with h | h
  · exact h
  · exfalso
    have e : j = m := by omega
    subst e
    apply hr
    simp only [ge_iff_le, Nat.lt_irrefl, decide_false, Bool.and_false, Bool.or_false, Bool.false_or, Bool.and_eq_true,
      bne_iff_ne, ne_eq, decide_eq_true_eq, ite_eq_right_iff, reduceCtorEq, imp_false]
    omega

theorem ite_three (c d : Prop) [Decidable c] [Decidable d] (e a b : Nat) :
    (if c then e else if d then a else b) = e ∨ (if c then e else if d then a else b) = b ∨
    (if c then e else if d then a else b) = a := by
  by_cases h : c
  · exact .inl (if_pos h)
  · rw [if_neg h]
    by_cases h' : d
    · exact .inr (.inr (if_pos h'))
    · exact .inr (.inl (if_neg h'))

theorem inc_specF (m seen sync it : Nat) :
    wpF n hw m (incP hw.good n it : Prog P (Option Nat)) seen sync
      (fun _ r => ∀ i, r = some i → i = endIdx ∨ i = it ∨ i = (if it + 1 = n then 0 else it + 1)) := by
  intro r j y h1 h2 h3 h4 h5 r' j' y' h1' h2' h3' h4' h5'
  intro i hi
  injection hi with hi
  subst hi
  exact ite_three _ _ _ _ _

/-- Where the thread is when nothing undefined has happened or will happen in its next step. -/
def safe (n : Nat) (hw : Hw) (s : St P) : Prop :=
  match s.pc with
  | .run (.front m) p => p = ConcReq.front ∨
      (m = s.popped ∧ s.popped ≤ s.sync ∧
        p = .loadW .acquire fun w => .ret (if s.popped % n = w then none else some (s.popped % n))) ∨
      p = .ret none ∨ (m = s.popped ∧ p = .ret (some (s.popped % n)) ∧ s.popped < s.sync)
  | .run .look _ => True
  | .run (.test it m _) p => s.popped ≤ m ∧ it = m % n ∧ wpF n hw m p s.seen s.sync (fun y r => r ≠ none → m < y)
  | .run (.inc it m _) p => s.popped ≤ m ∧ it = m % n ∧ m < s.seen ∧ wpF n hw m p s.seen s.sync
      (fun _ r => ∀ i, r = some i → i = endIdx ∨ i = it ∨ i = (if it + 1 = n then 0 else it + 1))
  | .deref i m => i = s.popped % n ∧ m = s.popped ∧ s.popped < s.sync
  | .want => True
  | .body it m _ => s.popped ≤ m ∧ it = m % n ∧ m < s.sync

theorem safe_again (s s' : St P) (h : s'.pc = again s) : safe n hw s' := by
  have e : again s = .run (.front 0) ConcReq.front ∨ again s = .want := by
    unfold again
    split
    · exact .inl rfl
    · exact .inr rfl
  unfold safe
  rcases e with e | e
  · rw [h, e]; exact .inl rfl
  · rw [h, e]; trivial

theorem safe_toTest (hg : hw.good = .acquire ∨ hw.strong = true) (s s' : St P) (it m cnt : Nat)
    (h : s'.pc = toTest hw.good s it m cnt) (h1 : it ≠ endIdx → s'.popped ≤ m ∧ it = m % n ∧ m ≤ s'.seen) : safe n hw s' := by
  rcases toTest_cases hw.good s it m cnt with e | ⟨e0, e⟩
  · exact safe_again s s' (h.trans e)
  · obtain ⟨g1, g2, g3⟩ := h1 e0
    unfold safe
    rw [h, e]
    refine ⟨g1, g2, ?_⟩
    subst g2
    exact test_spec hg m _ _ g3

theorem succ_mod (hn : 2 ≤ n) (m : Nat) : (if m % n + 1 = n then 0 else m % n + 1) = (m + 1) % n := by
  have := slot_mod (show 0 < n by omega) m 1 (by omega)
  have hr := Nat.mod_lt m (show 0 < n by omega)
  rw [← this]; unfold slotIdx; split <;> split <;> omega

theorem readable_of {s : St P} (hn : 2 ≤ n) (inv : Inv T n hw arr s) {m : Nat} (h1 : s.popped ≤ m) (h2 : m < s.sync) :
    Readable n s (m % n) m := by
  have := inv.room; have := inv.seen; have := inv.syn
  exact ⟨Nat.mod_lt _ (by omega), number_slot (by omega) _ _ h1 (by omega), h2⟩

theorem safe_step (hn : 2 ≤ n) (hs : n < 2147483648) (hg : hw.good = .acquire ∨ hw.strong = true)
    (hr : hw.rd = .acquire ∨ hw.strong = true) (hcf : hw.careful = true) {s s' : St P} (inv : Inv T n hw arr s)
    (sf : s.bad = false ∧ safe n hw s) (st : Step T n hw arr s s') : s'.bad = false ∧ safe n hw s' := by
  obtain ⟨hbad, sf⟩ := sf
  have hroom := inv.room; have hsyn := inv.syn; have hseen := inv.seen
  have hend : ∀ m : Nat, m % n ≠ endIdx := by
    intro m e
    have := Nat.mod_lt m (show 0 < n by omega)
    simp [endIdx] at e; omega
  cases st with
  | publish p harr hc => exact ⟨hbad, sf⟩
  | cleanBegin h => exact ⟨hbad, sf⟩
  | cleanEnd h => exact ⟨hbad, sf⟩
  | others j h1 h2 => exact ⟨hbad, sf⟩
  | arm a h h1 h2 => exact ⟨hbad, sf⟩
  | pop h hc =>
    refine ⟨hbad, ?_⟩
    have hc := hc hcf
    unfold mayPop at hc
    unfold safe at sf ⊢
    split at hc
    · exact hc.elim
    · exact hc.elim
    · rename_i e; rw [e] at sf ⊢; exact ⟨hc, sf.2⟩
    · rename_i e; rw [e] at sf ⊢; exact ⟨hc, sf.2⟩
    · exact hc.elim
    · rename_i e; rw [e]; trivial
    · rename_i e; rw [e] at sf ⊢; exact ⟨hc, sf.2⟩
  | enter hb h hc => exact ⟨hb, trivial⟩
  | loadW k o f j hb hp h1 h2 h3 =>
    refine ⟨hb, ?_⟩
    generalize hy : (if o = .acquire ∨ hw.strong = true then max s.sync j else s.sync) = y
    have hy1 : s.sync ≤ y ∧ y ≤ j ∧ (o = .acquire ∨ hw.strong = true → y = j) := by
      rw [← hy]
      split
      · exact ⟨by omega, by omega, fun _ => by omega⟩
      · exact ⟨by omega, by omega, fun hc => absurd hc (by assumption)⟩
    unfold safe at sf ⊢
    rw [hp] at sf
    cases k with
    | front m =>
      rcases sf with e | ⟨e1, e2, e3⟩ | e | ⟨e1, e2, e3⟩
      · simp [ConcReq.front] at e
      · injection e3 with e3 e4
        subst e3 e4
        have hyj := hy1.2.2 (.inl rfl)
        dsimp only
        by_cases he : s.popped % n = j % n
        · rw [if_pos he]; exact .inr (.inr (.inl rfl))
        · rw [if_neg he]
          refine .inr (.inr (.inr ⟨e1, rfl, ?_⟩))
          show s.popped < y
          have : s.popped ≠ j := fun h => he (by rw [h])
          omega
      · cases e
      · cases e2
    | look => trivial
    | test it m cnt =>
      obtain ⟨g1, g2, g3⟩ := sf
      exact ⟨g1, g2, g3 j y h1 (by omega) hy1.1 hy1.2.1 hy1.2.2⟩
    | inc it m cnt =>
      obtain ⟨g1, g2, g3, g4⟩ := sf
      exact ⟨g1, g2, by show m < j; omega, g4 j y h1 (by omega) hy1.1 hy1.2.1 hy1.2.2⟩
  | loadR k f r hb hp hre =>
    refine ⟨hb, ?_⟩
    unfold safe at sf ⊢
    rw [hp] at sf
    cases k with
    | front m =>
      rcases sf with e | ⟨e1, e2, e3⟩ | e | ⟨e1, e2, e3⟩
      · unfold ConcReq.front at e
        injection e with e
        subst e
        refine .inr (.inl ⟨rfl, ?_, ?_⟩)
        · show s.popped ≤ afterR hw s (.front m) s.sync
          simp only [afterR, if_pos hr]
          omega
        · rw [hre rfl]
      · cases e3
      · cases e
      · cases e2
    | look => trivial
    | test it m cnt =>
      obtain ⟨g1, g2, g3⟩ := sf
      exact ⟨g1, g2, g3 r⟩
    | inc it m cnt =>
      obtain ⟨g1, g2, g3, g4⟩ := sf
      exact ⟨g1, g2, g3, g4 r⟩
  | elem k i f a hb hp hi hsy he =>
    refine ⟨hb, ?_⟩
    unfold safe at sf ⊢
    rw [hp] at sf
    cases k with
    | front m =>
      rcases sf with e | ⟨e1, e2, e3⟩ | e | ⟨e1, e2, e3⟩
      · simp [ConcReq.front] at e
      · cases e3
      · cases e
      · cases e2
    | look => trivial
    | test it m cnt => exact sf.2.2.elim
    | inc it m cnt => exact sf.2.2.2.elim
  | race k i f hb hp hsy =>
    exfalso
    unfold safe at sf
    rw [hp] at sf
    cases k with
    | front m =>
      rcases sf with e | ⟨e1, e2, e3⟩ | e | ⟨e1, e2, e3⟩
      · simp [ConcReq.front] at e
      · cases e3
      · cases e
      · cases e2
    | look => exact hsy (inv.look _ hp).2.2.1
    | test it m cnt => exact sf.2.2.elim
    | inc it m cnt => exact sf.2.2.2.elim
  | fail k hb hp =>
    exfalso
    unfold safe at sf
    rw [hp] at sf
    cases k with
    | front m =>
      rcases sf with e | ⟨e1, e2, e3⟩ | e | ⟨e1, e2, e3⟩
      · simp [ConcReq.front] at e
      · cases e3
      · cases e
      · cases e2
    | look => exact (inv.look _ hp).2.2.elim
    | test it m cnt => exact sf.2.2.elim
    | inc it m cnt => exact sf.2.2.2.elim
  | derefBad i m hb hp hrd =>
    exfalso
    unfold safe at sf
    rw [hp] at sf
    obtain ⟨e1, e2, e3⟩ := sf
    subst e1 e2
    exact hrd (readable_of hn inv (Nat.le_refl _) e3)
  | bodyBad it m cnt hb hp hrd =>
    exfalso
    unfold safe at sf
    rw [hp] at sf
    obtain ⟨e1, e2, e3⟩ := sf
    subst e2
    exact hrd (readable_of hn inv e1 e3)
  | deref i m a hb hp hrd hx => exact ⟨hb, trivial⟩
  | body it m cnt a hb hp hrd hx =>
    unfold safe at sf
    rw [hp] at sf
    obtain ⟨e1, e2, e3⟩ := sf
    unfold record
    split
    · exact ⟨hb, e1, e2, by show m < s.seen; omega, inc_specF m _ _ it⟩
    · exact ⟨hb, e1, e2, by show m < s.seen; omega, inc_specF m _ _ it⟩
  | ret k r hb hp =>
    cases k with
    | front m =>
      unfold safe at sf
      rw [hp] at sf
      rcases sf with e | ⟨e1, e2, e3⟩ | e | ⟨e1, e2, e3⟩
      · simp [ConcReq.front] at e
      · cases e3
      · injection e with e; subst e; exact ⟨hb, trivial⟩
      · injection e2 with e2; subst e2; exact ⟨hb, rfl, e1, e3⟩
    | look =>
      obtain ⟨g1, g2, g3⟩ := inv.look _ hp
      obtain ⟨i, rfl, hi⟩ := g3 _ (Fut.refl ⟨inv.ar, hroom, g2, hsyn, hseen⟩)
      refine ⟨hb, safe_toTest hg s _ i (number n s.popped i) 0 rfl ?_⟩
      intro hne
      rcases hi with hi | ⟨m, a, m1, m2, rfl, m4, m5⟩
      · exact absurd hi hne
      · have m1 : s.popped ≤ m := m1
        have m2 : m < s.sync := m2
        rw [number_slot (by omega) _ _ m1 (by omega)]
        exact ⟨m1, rfl, by show m ≤ s.seen; omega⟩
    | test it m cnt =>
      unfold safe at sf
      rw [hp] at sf
      obtain ⟨g1, g2, g3⟩ := sf
      cases r with
      | none => exact ⟨hb, safe_again s _ rfl⟩
      | some x =>
        simp only [finish]
        by_cases hc : cnt < 1000
        · refine ⟨hb, ?_⟩
          rw [if_pos hc]
          exact ⟨g1, g2, g3 (by simp)⟩
        · refine ⟨hb, safe_again s _ ?_⟩
          show (if cnt < 1000 then _ else _) = _
          rw [if_neg hc]
    | inc it m cnt =>
      unfold safe at sf
      rw [hp] at sf
      obtain ⟨g1, g2, g3, g4⟩ := sf
      cases r with
      | none => exact ⟨hb, safe_again s _ rfl⟩
      | some it' =>
        refine ⟨hb, safe_toTest hg s _ it' (if it' = it then m else m + 1) cnt rfl ?_⟩
        intro hne
        show s.popped ≤ _ ∧ _ ∧ _ ≤ s.seen
        rcases g4 it' rfl with e | e | e
        · exact absurd e hne
        · rw [if_pos e, e]; exact ⟨g1, g2, by omega⟩
        · have hne' : it' ≠ it := by rw [e]; split <;> omega
          rw [if_neg hne', e, g2, succ_mod hn]
          exact ⟨by omega, rfl, by omega⟩

/-- **C112 (no race, partial)** If the load of the write index in `good()` and that of the read index in `front()` had order
acquire, or on hardware where relaxed loads synchronise, and as long as no cleanup removes a payload while the recording thread
is looking at it or at an older one (C58), the recording never reads a payload that is not there or not completely written. The code has neither of the
orders, see the counterexamples. -/
theorem C112_no_race_partial (T : PayloadType P) (n : Nat) (hn : 2 ≤ n) (hs : n < 2147483648) (hw : Hw) (arr : List P → Prop)
    (ha : RecOk T n arr) (hg : hw.good = .acquire ∨ hw.strong = true) (hr : hw.rd = .acquire ∨ hw.strong = true)
    (hcf : hw.careful = true) (s : St P) (h : Reach T n hw arr s) : s.bad = false := by
  have : s.bad = false ∧ safe n hw s := by
    induction h with
    | init pub popped view cleaning armed har h1 h2 h3 h4 => exact ⟨rfl, .inl rfl⟩
    | step h st ih => exact safe_step hn hs hg hr hcf (inv_reach hn ha h) ih st
  exact this.1

/-! ### A recording that never begins -/

/-- The recording's position is before everything stored, and all that arrives will be later still; `f`: what it has written. -/
structure Stuck (T : PayloadType P) (n : Nat) (hw : Hw) (arr : List P → Prop) (f : List P) (s : St P) : Prop where
  inv : Inv T n hw arr s
  ne : s.next ≠ 0
  file : s.file = f
  armed : s.armed = false
  pc : s.pc = .want ∨ ∃ p, s.pc = .run .look p
  gone : ∃ (b : Nat) (y : P), b ≤ s.popped ∧ s.pub[b]? = some y ∧ s.next ≤ T.ts y ∧ (b = s.popped → s.next < T.ts y)

theorem stuck_step (hn : 2 ≤ n) (ha : RecOk T n arr) {w : List P} {s s' : St P} (h : Stuck T n hw arr w s)
    (st : Step T n hw arr s s') : Stuck T n hw arr w s' ∧ s'.popped = s.popped ∧ s'.next = s.next := by
  have inv' := inv_step hn ha h.inv st
  obtain ⟨b, y, hb, hy, hny, heq⟩ := h.gone
  have hbl := getElem?_lt hy
  have nopc : ∀ k p, s.pc = .run k p → k = .look := by
    intro k p e
    rcases h.pc with e' | ⟨p', e'⟩
    · rw [e] at e'; cases e'
    · rw [e] at e'; injection e'
  cases st with
  | publish p harr hc =>
    exact ⟨⟨inv', h.ne, h.file, h.armed, h.pc, b, y, hb, by rw [List.getElem?_append_left hbl]; exact hy, hny, heq⟩, rfl, rfl⟩
  | cleanBegin h' => exact ⟨⟨inv', h.ne, h.file, h.armed, h.pc, h.gone⟩, rfl, rfl⟩
  | cleanEnd h' => exact ⟨⟨inv', h.ne, h.file, h.armed, h.pc, h.gone⟩, rfl, rfl⟩
  | others j h1 h2 => exact ⟨⟨inv', h.ne, h.file, h.armed, h.pc, h.gone⟩, rfl, rfl⟩
  | arm a h' h1 h2 =>
    rcases Nat.lt_or_eq_of_le hb with hb | rfl
    · have := ord_get ha h.inv.ar hb hy h1
      omega
    · rw [hy] at h1; injection h1 with h1; subst h1; omega
  | pop h' hc => rw [h.armed] at h'; cases h'
  | enter hb' h' hc => exact ⟨⟨inv', h.ne, h.file, h.armed, .inr ⟨_, rfl⟩, h.gone⟩, rfl, rfl⟩
  | loadW k o f j hb' hp h1 h2 h3 =>
    have := nopc _ _ hp; subst this
    exact ⟨⟨inv', h.ne, h.file, h.armed, .inr ⟨_, rfl⟩, h.gone⟩, rfl, rfl⟩
  | loadR k f r hb' hp hre =>
    have := nopc _ _ hp; subst this
    exact ⟨⟨inv', h.ne, h.file, h.armed, .inr ⟨_, rfl⟩, h.gone⟩, rfl, rfl⟩
  | elem k i f a hb' hp hi hsy he =>
    have := nopc _ _ hp; subst this
    exact ⟨⟨inv', h.ne, h.file, h.armed, .inr ⟨_, rfl⟩, h.gone⟩, rfl, rfl⟩
  | race k i f hb' hp hsy => exact ⟨⟨inv', h.ne, h.file, h.armed, h.pc, h.gone⟩, rfl, rfl⟩
  | fail k hb' hp => exact ⟨⟨inv', h.ne, h.file, h.armed, h.pc, h.gone⟩, rfl, rfl⟩
  | ret k r hb' hp =>
    have := nopc _ _ hp; subst this
    obtain ⟨g1, g2, g3⟩ := h.inv.look _ hp
    obtain ⟨i, rfl, hi⟩ := g3 _ (Fut.refl ⟨h.inv.ar, h.inv.room, g2, h.inv.syn, h.inv.seen⟩)
    have hi : i = endIdx := by
      rcases hi with hi | ⟨m, a, m1, m2, m3, m4, m5⟩
      · exact hi
      · have m1 : s.popped ≤ m := m1
        rcases Nat.lt_or_ge b m with hbm | hbm
        · have := ord_get ha h.inv.ar hbm hy m4
          have := (ha.pos _ h.inv.ar y (List.mem_of_getElem? hy)).2
          omega
        · have e : b = m := by omega
          subst e
          have m4 : s.pub[b]? = some a := m4
          have := heq (by omega)
          rw [hy] at m4; injection m4 with m4; subst m4; omega
    subst hi
    refine ⟨⟨inv', h.ne, h.file, h.armed, .inl ?_, h.gone⟩, rfl, rfl⟩
    simp [finish, toTest, again, h.ne]
  | deref i m a hb' hp hrd hx =>
    rcases h.pc with e | ⟨p, e⟩ <;> rw [hp] at e <;> cases e
  | derefBad i m hb' hp hrd =>
    rcases h.pc with e | ⟨p, e⟩ <;> rw [hp] at e <;> cases e
  | body it m cnt a hb' hp hrd hx =>
    rcases h.pc with e | ⟨p, e⟩ <;> rw [hp] at e <;> cases e
  | bodyBad it m cnt hb' hp hrd =>
    rcases h.pc with e | ⟨p, e⟩ <;> rw [hp] at e <;> cases e

theorem stuck_later (hn : 2 ≤ n) (ha : RecOk T n arr) {w : List P} {s t : St P} (h : Stuck T n hw arr w s)
    (l : Later T n hw arr s t) : Stuck T n hw arr w t ∧ t.popped = s.popped := by
  induction l with
  | refl => exact ⟨h, rfl⟩
  | step _ st ih =>
    obtain ⟨g1, g2, -⟩ := stuck_step hn ha ih.1 st
    exact ⟨g1, g2.trans ih.2⟩

/-! ### Concrete executions -/

/-- One step of the recording thread, loads returning the newest values. -/
def recNext (T : PayloadType P) (n : Nat) (hw : Hw) (s : St P) : Option (St P) :=
  if s.bad then none else
  match s.pc with
  | .want => if s.cleaning then none else
      some { s with pc := .run .look (lookP T n s.next), seen := max s.seen s.view, sync := max s.sync s.view }
  | .run k (.loadW o f) =>
    if s.seen ≤ s.pub.length then
      some { s with pc := .run k (f (s.pub.length % n)), seen := s.pub.length,
                    sync := if o = .acquire ∨ hw.strong = true then max s.sync s.pub.length else s.sync }
    else none
  | .run k (.loadR f) =>
    some { s with pc := .run (markR s k) (f (s.popped % n)), seen := afterR hw s k s.seen, sync := afterR hw s k s.sync }
  | .run k (.elem i f) =>
    if i < n ∧ number n s.popped i < s.sync then
      match s.pub[number n s.popped i]? with
      | some a => some { s with pc := .run k (f a) }
      | none => none
    else some { s with bad := true }
  | .run _ .fail => some { s with bad := true }
  | .run k (.ret r) => some (finish n hw s k r)
  | .run _ _ => none
  | .deref i m =>
    if i < n ∧ number n s.popped i = m ∧ m < s.sync then
      match s.pub[m]? with
      | some a => some { s with next := T.ts a, pc := .want }
      | none => none
    else some { s with bad := true }
  | .body it m cnt =>
    if it < n ∧ number n s.popped it = m ∧ m < s.sync then
      match s.pub[m]? with
      | some a => some (record T n hw s it m cnt a)
      | none => none
    else some { s with bad := true }

theorem recNext_sound {s s' : St P} (h : recNext T n hw s = some s') : Step T n hw arr s s' := by
  unfold recNext at h
  split at h
  · simp at h
  rename_i hb
  have hb : s.bad = false := by simpa using hb
  split at h <;> rename_i hp
  · split at h
    · simp at h
    · injection h with h; subst h; exact .enter s hb hp (by simp_all)
  · split at h
    · injection h with h; subst h; exact .loadW s _ _ _ _ hb hp (by assumption) (Nat.le_refl _) (fun _ => rfl)
    · simp at h
  · injection h with h; subst h; exact .loadR s _ _ _ hb hp (fun _ => rfl)
  · split at h
    · rename_i hc
      split at h
      · injection h with h; subst h; exact .elem s _ _ _ _ hb hp hc.1 hc.2 (by assumption)
      · simp at h
    · injection h with h; subst h; exact .race s _ _ _ hb hp (by assumption)
  · injection h with h; subst h; exact .fail s _ hb hp
  · injection h with h; subst h; exact .ret s _ _ hb hp
  · simp at h
  · split at h
    · split at h
      · injection h with h; subst h; exact .deref s _ _ _ hb hp (by assumption) (by assumption)
      · simp at h
    · injection h with h; subst h; exact .derefBad s _ _ hb hp (by assumption)
  · split at h
    · split at h
      · injection h with h; subst h; exact .body s _ _ _ _ hb hp (by assumption) (by assumption)
      · simp at h
    · injection h with h; subst h; exact .bodyBad s _ _ _ hb hp (by assumption)

/-- At most `m` steps of the recording thread. -/
def run (T : PayloadType P) (n : Nat) (hw : Hw) : Nat → St P → St P
  | 0, s => s
  | m + 1, s =>
    match recNext T n hw s with
    | some s' => run T n hw m s'
    | none => s

theorem run_reach {m : Nat} {s : St P} (h : Reach T n hw arr s) : Reach T n hw arr (run T n hw m s) := by
  induction m generalizing s with
  | zero => exact h
  | succ m ih =>
    unfold run
    split
    · rename_i s' hs
      exact ih (.step h (recNext_sound hs))
    · exact h

/-- Payloads of twelve frames that do not overlap. -/
def wibs (l : List Nat) : Prop := Increasing wibLike l ∧ l.Pairwise (fun a b => a + 300 ≤ b) ∧ ∀ a ∈ l, 0 < a

theorem wibs_ok (n : Nat) : RecOk wibLike n wibs where
  ok := ⟨⟨List.Pairwise.nil, List.Pairwise.nil, by simp⟩,
    fun l h => ⟨fun p _ => ⟨by simp [wibLike], fun i _ => rfl⟩, h.1⟩, by intro nf h; simp at h⟩
  ord := fun l h => h.2.1
  pos := fun l h a ha => ⟨h.2.2 a ha, by simp [span, wibLike]⟩

/-- The state in which a recording begins with `pub` received and nothing removed. -/
def begin_ (pub : List Nat) (armed : Bool) : St Nat :=
  ⟨pub, 0, 0, 0, .run (.front 0) ConcReq.front, 0, 0, [], armed, armed, false⟩

theorem wibs_list : wibs [1000] ∧ wibs [1000, 1300] ∧ wibs [1000, 1300, 1600] := by
  refine ⟨⟨?_, by decide, by decide⟩, ⟨?_, by decide, by decide⟩, ⟨?_, by decide, by decide⟩⟩ <;>
  (unfold Increasing; decide)

/-- The recording has written payload 1000 when 1300 arrives. -/
def scene (hw : Hw) : St Nat :=
  let s := run wibLike 4 hw 14 (begin_ [1000] false)
  run wibLike 4 hw 40 { s with pub := s.pub ++ [1300] }

theorem scene_reach (hw : Hw) (h : (run wibLike 4 hw 14 (begin_ [1000] false)).pub = [1000])
    (h' : (run wibLike 4 hw 14 (begin_ [1000] false)).popped = 0) : Reach wibLike 4 hw wibs (scene hw) := by
  unfold scene
  have r0 : Reach wibLike 4 hw wibs (begin_ [1000] false) :=
    .init [1000] 0 0 false false wibs_list.1 (by decide) (by decide) (by decide) (by simp)
  refine run_reach (.step (run_reach r0) (.publish _ 1300 ?_ ?_))
  · rw [h]; exact wibs_list.2.1
  · rw [h, h']; decide

/-- Non-vacuity for C112: with the orders repaired the payload that arrives during the pass is recorded. -/
example : RecOk wibLike 4 wibs ∧ Reach wibLike 4 ⟨false, true, .acquire, .acquire, true⟩ wibs
      (scene ⟨false, true, .acquire, .acquire, true⟩) ∧
    (scene ⟨false, true, .acquire, .acquire, true⟩).file = [1000, 1300] ∧
    (scene ⟨false, true, .acquire, .acquire, true⟩).bad = false :=
  ⟨wibs_ok 4, scene_reach _ (by decide +kernel) (by decide +kernel), by decide +kernel, by decide +kernel⟩

/-- **C112 is false as the code stands**: `good()` loads the write index with relaxed order and does not synchronise with the
write of the payload that it lets the recording read. A payload that arrives during a pass is read, and written to the file,
although nothing orders its construction before: a data race, even if every load returns the newest value and nothing is ever
removed. -/
theorem C112_relaxed_good_counterexample :
    Reach wibLike 4 ⟨false, true, .relaxed, .acquire, true⟩ wibs (scene ⟨false, true, .relaxed, .acquire, true⟩) ∧
    (scene ⟨false, true, .relaxed, .acquire, true⟩).bad = true ∧
    (scene ⟨false, true, .relaxed, .acquire, true⟩).popped = 0 :=
  ⟨scene_reach _ (by decide +kernel) (by decide +kernel), by decide +kernel, by decide +kernel⟩

/-- **C112 is false as the code stands**: `front()` is called outside the protection; it may load a new read index and an older
write index, and then returns a slot that has not been written. -/
theorem C112_stale_front_counterexample : ∃ s, Reach wibLike 4 ⟨false, false, .acquire, .relaxed, true⟩ wibs s ∧ s.bad = true := by
  have r : Reach wibLike 4 ⟨false, false, .acquire, .relaxed, true⟩ wibs _ :=
    .init [1000, 1300] 2 2 false false wibs_list.2.1 (by decide) (by decide) (by decide) (by simp)
  have r := Reach.step r (.loadR _ (.front 0) _ 2 rfl rfl (fun _ => rfl))
  have r := Reach.step r (.loadW _ (.front 2) _ _ 0 rfl rfl (Nat.le_refl _) (Nat.zero_le _) (by simp))
  have r := Reach.step r (.ret _ (.front 2) (some 2) rfl rfl)
  have r := Reach.step r (.derefBad _ 2 2 rfl rfl (by rintro ⟨-, -, h⟩; exact absurd h (by decide)))
  exact ⟨_, r, rfl⟩

/-- **C112 (a recording that never begins)** The test and the removal of a cleanup that is under way when the recording begins may
fall on both sides of the moment at which the recording takes its position from the oldest payload. Then the recording looks for
a payload that is gone, for the rest of its duration: although the data have no gap it writes nothing, whatever arrives, and no
cleanup removes anything any more. This holds even with the orders repaired. -/
theorem C112_never_begins_counterexample : ∃ s, Reach wibLike 4 ⟨true, true, .acquire, .acquire, true⟩ wibs s ∧
    s.pub = [1000, 1300] ∧ s.popped = 1 ∧ s.bad = false ∧
    ∀ t, Later wibLike 4 ⟨true, true, .acquire, .acquire, true⟩ wibs s t → t.file = [] ∧ t.popped = 1 := by
  have r : Reach wibLike 4 ⟨true, true, .acquire, .acquire, true⟩ wibs (begin_ [1000, 1300] true) :=
    .init [1000, 1300] 0 0 true true wibs_list.2.1 (by decide) (by decide) (by decide) (by simp)
  have r := run_reach (m := 4) r
  have r := Reach.step r (.pop _ rfl (fun _ => trivial))
  refine ⟨_, r, rfl, rfl, rfl, ?_⟩
  intro t ht
  have h : Stuck wibLike 4 ⟨true, true, .acquire, .acquire, true⟩ wibs [] _ :=
    ⟨inv_reach (by decide) (wibs_ok 4) r, by decide, rfl, rfl, .inl rfl, 0, 1000, by decide, rfl, by decide, by decide⟩
  obtain ⟨g1, g2⟩ := stuck_later (by decide) (wibs_ok 4) h ht
  exact ⟨g1.file, g2⟩

/-- **C112 is false as the code stands**: a cleanup whose test came before the recording began may remove the oldest payload
between `front()` and the reading of its time. The memory that is read then is free or holds another payload. This holds on any
hardware and whatever the orders. -/
theorem C112_removed_front_counterexample :
    ∃ s, Reach wibLike 4 ⟨true, true, .acquire, .acquire, false⟩ wibs s ∧ s.bad = true := by
  have r : Reach wibLike 4 ⟨true, true, .acquire, .acquire, false⟩ wibs (begin_ [1000, 1300] true) :=
    .init [1000, 1300] 0 0 true true wibs_list.2.1 (by decide) (by decide) (by decide) (by simp)
  have r := run_reach (m := 3) r
  have r := Reach.step r (.pop _ rfl (fun h => by cases h))
  have r := Reach.step r (.derefBad _ 0 0 rfl rfl (by rintro ⟨-, h, -⟩; exact absurd h (by decide)))
  exact ⟨_, r, rfl⟩

end Verif.ConcRec
