import Verif.ConcReqModel
import Verif.HistoryProps
/- Reasoning about the programs of `Verif.ConcReqModel`: what a program needs in order to end well, whatever the other threads do. -/
namespace Verif.ConcReq
open Verif.Ring Verif.Search Verif.DataReq
variable {P β γ : Type}

/-- The payloads stored when number `j` is the next to be published. -/
def stored (pub : List P) (popped j : Nat) : List P := (pub.take j).drop popped

/-- Which sequences may arrive: well formed, increasing, and for the fixed-rate buffer no wrap of the time counter. -/
structure ArrOk (T : PayloadType P) (k : Lookup) (n : Nat) (arr : List P → Prop) : Prop where
  start : arr []
  wf : ∀ l, arr l → WellFormed T l ∧ Increasing T l
  fixed : ∀ nf, k = .fixed nf → 0 < T.tick ∧ 0 < nf ∧
    ∀ l, arr l → ∀ a ∈ l, T.ts a + n * T.tick * nf < 18446744073709551616

/-- What a thread knows: published payloads, the oldest stored, the newest seen, the newest
synchronised with. -/
structure View (P : Type) where
  pub : List P
  popped : Nat
  seen : Nat
  sync : Nat

/-- Views that occur. -/
structure View.Ok (n : Nat) (arr : List P → Prop) (v : View P) : Prop where
  arr : arr v.pub
  room : v.pub.length < v.popped + n
  low : v.popped ≤ v.sync
  mid : v.sync ≤ v.seen
  high : v.seen ≤ v.pub.length

/-- A later view of the same thread. -/
structure Fut (n : Nat) (arr : List P → Prop) (v v' : View P) : Prop where
  pop : v'.popped = v.popped
  pre : v.pub <+: v'.pub
  mono : v.seen ≤ v'.seen
  sync : v.sync ≤ v'.sync
  ok : v'.Ok n arr

theorem Fut.refl {n : Nat} {arr : List P → Prop} {v : View P} (h : v.Ok n arr) : Fut n arr v v :=
  ⟨rfl, List.prefix_refl _, Nat.le_refl _, Nat.le_refl _, h⟩

theorem Fut.trans {n : Nat} {arr : List P → Prop} {a b c : View P} (h : Fut n arr a b) (g : Fut n arr b c) :
    Fut n arr a c :=
  ⟨g.pop.trans h.pop, h.pre.trans g.pre, Nat.le_trans h.mono g.mono, Nat.le_trans h.sync g.sync, g.ok⟩

theorem prefix_get {l m : List P} (h : l <+: m) {i : Nat} (hi : i < l.length) : m[i]? = l[i]? := by
  obtain ⟨t, rfl⟩ := h
  rw [List.getElem?_append_left hi]

theorem Fut.get {n : Nat} {arr : List P → Prop} {v w : View P} (h : Fut n arr v w) {i : Nat} (hi : i < v.pub.length) :
    w.pub[i]? = v.pub[i]? := prefix_get h.pre hi

theorem stored_prefix {l m : List P} (h : l <+: m) (p j : Nat) (hj : j ≤ l.length) : stored m p j = stored l p j := by
  obtain ⟨t, rfl⟩ := h
  unfold stored
  rw [List.take_append_of_le_length hj]

theorem stored_get (l : List P) (p j i : Nat) : (stored l p j)[i]? = if p + i < j then l[p + i]? else none := by
  unfold stored
  rw [List.getElem?_drop, List.getElem?_take]

theorem stored_length (l : List P) (p j : Nat) (hj : j ≤ l.length) : (stored l p j).length = j - p := by
  simp [stored]; omega

section
variable (T : PayloadType P) (k : Lookup) (n : Nat) (hw : Hw) (arr : List P → Prop)

/-- The program ends well, and then `Q` holds, whatever the other threads do meanwhile. -/
def wp : Prog P β → View P → (View P → β → Prop) → Prop
  | .ret b, v, Q => ∀ v', Fut n arr v v' → Q v' b
  | .fail, _, _ => False
  | .loadW o f, v, Q => ∀ v', Fut n arr v v' → (hw.fresh = true → v'.seen = v'.pub.length) →
      (o = .acquire ∨ hw.strong = true → v'.sync = v'.seen) → wp (f (v'.seen % n)) v' Q
  | .loadR f, v, Q => ∀ v', Fut n arr v v' → wp (f (v.popped % n)) v' Q
  | .elem i f, v, Q => (i < n ∧ number n v.popped i < v.sync) ∧ ∀ v' x, Fut n arr v v' →
      v.pub[number n v.popped i]? = some x → wp (f x) v' Q
  | .err f, v, Q => ∀ v' b, Fut n arr v v' → Told T k (v'.pub.drop v'.popped) b → wp (f b) v' Q
  | .marker f, v, Q => ∀ v' b, Fut n arr v v' → wp (f b) v' Q

theorem wp_fut {p : Prog P β} {v w : View P} {Q : View P → β → Prop} (hv : v.Ok n arr) (h : wp T k n hw arr p v Q)
    (hf : Fut n arr v w) : wp T k n hw arr p w Q := by
  cases p with
  | ret b => exact fun v' h' => h v' (hf.trans h')
  | fail => exact h
  | loadW o f => exact fun v' h' hh => h v' (hf.trans h') hh
  | loadR f => intro v' h'; rw [hf.pop]; exact h v' (hf.trans h')
  | elem i f =>
    have hlt := h.1.2
    have := hv.high
    have := hv.mid
    refine ⟨⟨h.1.1, ?_⟩, ?_⟩
    · rw [hf.pop]; have := hf.sync; omega
    · intro v' x h' hx
      rw [hf.pop, hf.get (by omega)] at hx
      exact h.2 v' x (hf.trans h') hx
  | err f => exact fun v' b h' hh => h v' b (hf.trans h') hh
  | marker f => exact fun v' b h' => h v' b (hf.trans h')

theorem wp_conseq {p : Prog P β} {v : View P} {Q R : View P → β → Prop} (h : wp T k n hw arr p v Q)
    (hq : ∀ v' b, Fut n arr v v' → Q v' b → R v' b) : wp T k n hw arr p v R := by
  induction p generalizing v with
  | ret b => exact fun v' h' => hq v' b h' (h v' h')
  | fail => exact h
  | loadW o f ih => exact fun v' h' hh hs => ih _ (h v' h' hh hs) fun v'' b g => hq v'' b (h'.trans g)
  | loadR f ih => exact fun v' h' => ih _ (h v' h') fun v'' b g => hq v'' b (h'.trans g)
  | elem i f ih => exact ⟨h.1, fun v' x h' hx => ih _ (h.2 v' x h' hx) fun v'' b g => hq v'' b (h'.trans g)⟩
  | err f ih => exact fun v' x h' hx => ih _ (h v' x h' hx) fun v'' b g => hq v'' b (h'.trans g)
  | marker f ih => exact fun v' x h' => ih _ (h v' x h') fun v'' b g => hq v'' b (h'.trans g)

theorem wp_bind {p : Prog P β} {f : β → Prog P γ} {v : View P} {Q : View P → γ → Prop} (hv : v.Ok n arr)
    (h : wp T k n hw arr p v fun v' b => wp T k n hw arr (f b) v' Q) :
    wp T k n hw arr (p.bind f) v Q := by
  induction p generalizing v with
  | ret b => exact h v (Fut.refl hv)
  | fail => exact h
  | loadW o g ih => exact fun v' h' hh hs => ih _ h'.ok (h v' h' hh hs)
  | loadR g ih => exact fun v' h' => ih _ h'.ok (h v' h')
  | elem i g ih => exact ⟨h.1, fun v' x h' hx => ih _ h'.ok (h.2 v' x h' hx)⟩
  | err g ih => exact fun v' x h' hx => ih _ h'.ok (h v' x h' hx)
  | marker g ih => exact fun v' x h' => ih _ h'.ok (h v' x h')

/-- A part of a program with a known result, followed by the rest. -/
theorem wp_seq {p : Prog P β} {f : β → Prog P γ} {v : View P} {R : View P → β → Prop} {Q : View P → γ → Prop}
    (hv : v.Ok n arr) (h : wp T k n hw arr p v R)
    (hf : ∀ v' b, Fut n arr v v' → R v' b → wp T k n hw arr (f b) v' Q) :
    wp T k n hw arr (p >>= f) v Q :=
  wp_bind T k n hw arr hv (wp_conseq T k n hw arr h hf)

end

/-! ### Slots and numbers -/

theorem slot_mod {n : Nat} (hn : 0 < n) (p i : Nat) (hi : i < n) : slotIdx n (p % n) i = (p + i) % n := by
  have hr := Nat.mod_lt p hn
  have e : (p + i) % n = (p % n + i) % n := by rw [Nat.add_mod, Nat.mod_eq_of_lt hi]
  rw [e]
  generalize p % n = r at *
  unfold slotIdx
  split
  · exact (Nat.mod_eq_of_lt (by omega)).symm
  · rw [Nat.mod_eq_sub_mod (show n ≤ r + i by omega), Nat.mod_eq_of_lt (show r + i - n < n by omega)]

theorem number_slot {n : Nat} (hn : 0 < n) (p m : Nat) (h1 : p ≤ m) (h2 : m < p + n) : number n p (m % n) = m := by
  have hr := Nat.mod_lt p hn
  have e : m % n = slotIdx n (p % n) (m - p) := by rw [slot_mod hn p (m - p) (by omega)]; congr 1; omega
  rw [e]
  unfold number slotIdx
  split <;> split <;> omega

/-- The ring buffer as a thread that has seen `j` publications knows it. -/
def ringOf (n : Nat) (pub : List P) (popped j : Nat) : Ring.Ring P :=
  { size := n, slots := fun i => if i < n ∧ number n popped i < j then pub[number n popped i]? else none,
    rd := popped % n, wr := j % n, overflow := 0 }

theorem ringOf_repr {n : Nat} (hn : 2 ≤ n) (pub : List P) (popped j : Nat) (h1 : popped ≤ j) (h2 : j < popped + n)
    (h3 : j ≤ pub.length) : Repr (ringOf n pub popped j) (stored pub popped j) := by
  have hr := Nat.mod_lt popped (show 0 < n by omega)
  have hl := stored_length pub popped j h3
  refine ⟨hn, hr, ?_, ?_, ?_, ?_⟩
  · show _ < n; omega
  · show j % n = slotIdx n (popped % n) _
    rw [hl, slot_mod (by omega) _ _ (by omega)]; congr 1; omega
  · intro i a ha
    rw [stored_get] at ha
    split at ha
    · show (if slotIdx n (popped % n) i < n ∧ number n popped (slotIdx n (popped % n) i) < j then
        pub[number n popped (slotIdx n (popped % n) i)]? else none) = _
      rw [slot_mod (by omega) _ _ (by omega), number_slot (by omega) _ _ (by omega) (by omega),
        if_pos ⟨Nat.mod_lt _ (by omega), by assumption⟩, ha]
    · simp at ha
  · intro i hi hd
    show (if i < n ∧ number n popped i < j then _ else none) = none
    have hi' : i < n := hi
    rw [if_neg]
    rintro ⟨-, hc⟩
    refine hd (number n popped i - popped) ?_ ?_
    · rw [hl]; unfold number at *; omega
    · show i = slotIdx n (popped % n) _
      unfold number slotIdx; split <;> split <;> omega

theorem ringOf_load {n : Nat} (pub : List P) (popped j i : Nat) (x : P) :
    (ringOf n pub popped j).load i = .ok x ↔
      (i < n ∧ number n popped i < j) ∧ pub[number n popped i]? = some x := by
  unfold Ring.load ringOf
  by_cases h1 : i < n
  · by_cases h2 : number n popped i < j
    · simp only [h1, h2, and_self, if_true, true_and]
      cases h : pub[number n popped i]? <;> simp
    · simp [h1, h2]
  · simp [h1]

end Verif.ConcReq
