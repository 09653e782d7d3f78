import Verif.TpChainModel
import Verif.TpHandlerProps
import Verif.TpgProps
/- Property C86: trigger primitives from the samples to the TP sets. -/
namespace Verif.TpChain
open Verif.Tpg
open Verif.TpHandler hiding Tp

/-! ### Specification -/

/-- The trigger primitives offered, each with the timestamp of its superchunk. -/
def offered (xs : List (Nat × List (Nat × Hit))) : List (Nat × TrigPrim) :=
  xs.flatMap fun x => x.2.map fun h => (x.1, ⟨h.1, tpOf x.1 h.2⟩)

/-- Offered in time for the timeout. -/
def inTime (c : Cfg) (x : Nat × TrigPrim) : Bool := decide (x.1 < start x.2 + c.timeout)

/-- The TPs of a link: those in the sets and those pending. -/
def held (s : St) : List TrigPrim := s.h.buf ++ s.h.sets.flatMap (·.1.objects)

/-- Superchunk timestamps do not decrease and obey `pace`. -/
def Paced (pace : Nat → Nat → Prop) : Nat → List (Nat × List (Nat × Hit)) → Prop
  | _, [] => True
  | a, x :: xs => a ≤ x.1 ∧ pace a x.1 ∧ Paced pace x.1 xs

/-- Timestamp of the last superchunk. -/
def lastStamp : Nat → List (Nat × List (Nat × Hit)) → Nat
  | a, [] => a
  | _, x :: xs => lastStamp x.1 xs

/-- Superchunks with timestamps 300 ticks apart. -/
def stamped (ts : Nat) : Nat → List (List (Nat × Hit)) → List (Nat × List (Nat × Hit))
  | _, [] => []
  | k, h :: hs => (ts + 300 * k, h) :: stamped ts (k + 1) hs

/-- Charge, duration (both at most 32767) of the run over threshold that ends before sample `e`. -/
def runQ (taps : Nat → Int) (ped : Int) (xs : List Int) (e : Nat) : Nat :=
  (min 32767 (runSum (overAt taps ped xs) (chargeAt taps ped xs) e)).toNat
def runL (taps : Nat → Int) (ped : Int) (xs : List Int) (e : Nat) : Nat :=
  min 32767 (runLen (overAt taps ped xs) e)

/-- Samples at which a run over threshold with non-zero charge has just ended. -/
def signalEnds (taps : Nat → Int) (ped : Int) (xs : List Int) (k n : Nat) : List Nat :=
  ((List.range n).map (k + ·)).filter fun e =>
    ends (overAt taps ped xs) e && decide (runQ taps ped xs e ≠ 0)

/-- The TP for the run ending before sample `e`, sample 0 being at time `ts` and samples 25 ticks
apart. -/
def runTp (taps : Nat → Int) (ped : Int) (xs : List Int) (ts e : Nat) : Tp :=
  ⟨ts + 25 * (e - runL taps ped xs e), (ts + 25 * (e - runL taps ped xs e) + (ts + 25 * e)) / 2,
    25 * runL taps ped xs e, runQ taps ped xs e⟩

/-! ### One run of the chain -/

theorem foldl_run (pick : List TrigPrim → Option (TrigPrim × List TrigPrim)) (c : Cfg)
    (pace : Nat → Nat → Prop) (t : Nat) (hits : List (Nat × Hit)) :
    ∀ (s : St) (acc : List TrigPrim) (last ls : Nat),
      Run start pick c pace s.h acc last ls → last ≤ t →
      (∀ h ∈ hits, (tpOf t h.2).timeStart + c.window + c.timeout < 18446744073709551616) →
      ∃ last', last ≤ last' ∧ last' ≤ t ∧
        Run start pick c pace (hits.foldl (addHit c t) s).h
          ((((hits.map fun h => (t, (⟨h.1, tpOf t h.2⟩ : TrigPrim))).filter (inTime c)).map
            (·.2)).reverse ++ acc) last' ls ∧
        (hits.foldl (addHit c t) s).dropped = s.dropped
          + ((hits.map fun h => (t, (⟨h.1, tpOf t h.2⟩ : TrigPrim))).filter
              fun x => !inTime c x).length ∧
        (hits.foldl (addHit c t) s).found = s.found + hits.length := by
  induction hits with
  | nil => intro s acc last ls h hl _; exact ⟨last, Nat.le_refl _, hl, by simpa using h, by simp, by simp⟩
  | cons x hits ih =>
    intro s acc last ls h hl hb
    have hbx := hb x (by simp)
    have step := Run.add s.h acc last ls t (⟨x.1, tpOf t x.2⟩ : TrigPrim) h hl hbx
    have hu : Verif.Search.u64 (start (⟨x.1, tpOf t x.2⟩ : TrigPrim) + c.timeout)
        = start (⟨x.1, tpOf t x.2⟩ : TrigPrim) + c.timeout :=
      TpHandler.u64_of_lt (by show (tpOf t x.2).timeStart + _ < _; omega)
    have hdec : (addTp start c s.h ⟨x.1, tpOf t x.2⟩ t).2 = inTime c (t, ⟨x.1, tpOf t x.2⟩) := by
      unfold addTp inTime
      rw [hu]
      split
      · rename_i hgt; simp; omega
      · rename_i hgt; simp; omega
    rw [hdec] at step
    have step' : Run start pick c pace (addHit c t s x).h
        (if inTime c (t, ⟨x.1, tpOf t x.2⟩) = true then (⟨x.1, tpOf t x.2⟩ : TrigPrim) :: acc else acc)
        t ls := step
    obtain ⟨last', h1, h2, h3, h4, h5⟩ := ih (addHit c t s x) _ t ls step' (Nat.le_refl _)
      (fun h hh => hb h (List.mem_cons_of_mem _ hh))
    refine ⟨last', by omega, h2, ?_, ?_, ?_⟩
    · rw [List.foldl_cons, List.map_cons, List.filter_cons]
      split
      · rename_i hc
        rw [if_pos hc] at h3
        simpa using h3
      · rename_i hc
        rw [if_neg hc] at h3
        exact h3
    · rw [List.foldl_cons, h4, List.map_cons, List.filter_cons]
      have : (addHit c t s x).dropped
          = if inTime c (t, ⟨x.1, tpOf t x.2⟩) = true then s.dropped else s.dropped + 1 := by
        show (if _ then _ else _) = _
        rw [hdec]
      rw [this]
      cases inTime c (t, ⟨x.1, tpOf t x.2⟩)
      · simp; omega
      · simp
    · rw [List.foldl_cons, h5]
      show s.found + 1 + hits.length = _
      simp; omega

theorem trySend_ok (pick : List TrigPrim → Option (TrigPrim × List TrigPrim)) (c : Cfg)
    (hw0 : 0 < c.window) (h : TpHandler.St TrigPrim) (t : Nat) (okTp : Nat → Bool) (okSet : Bool) :
    ∃ h', trySend start pick c h t okTp okSet = .ok h' := by
  unfold trySend
  cases pick h.buf with
  | none => exact ⟨_, rfl⟩
  | some x =>
    dsimp only
    split
    · rw [if_neg (by omega)]; exact ⟨_, rfl⟩
    · exact ⟨_, rfl⟩

/-- The chain is a history of the TP handler. -/
theorem chain_run (pick : List TrigPrim → Option (TrigPrim × List TrigPrim)) (c : Cfg)
    (hw0 : 0 < c.window) (push : Nat → Push) (pace : Nat → Nat → Prop)
    (xs : List (Nat × List (Nat × Hit))) :
    ∀ (k : Nat) (s : St) (acc : List TrigPrim) (last : Nat),
      Run start pick c pace s.h acc last last → Paced pace last xs →
      (∀ x ∈ offered xs, start x.2 + c.window + c.timeout < 18446744073709551616) →
      ∃ s' acc', chain pick c push k s xs = .ok s' ∧
        Run start pick c pace s'.h acc' (lastStamp last xs) (lastStamp last xs) ∧
        acc'.Perm (((offered xs).filter (inTime c)).map (·.2) ++ acc) ∧
        s'.dropped = s.dropped + ((offered xs).filter fun x => !inTime c x).length ∧
        s'.found = s.found + (offered xs).length := by
  induction xs with
  | nil =>
    intro k s acc last h _ _
    exact ⟨s, acc, rfl, h, by simp [offered], by simp [offered], by simp [offered]⟩
  | cons x xs ih =>
    intro k s acc last h hp hb
    obtain ⟨p1, p2, p3⟩ := hp
    have ho : offered (x :: xs)
        = (x.2.map fun h => (x.1, (⟨h.1, tpOf x.1 h.2⟩ : TrigPrim))) ++ offered xs := by
      simp [offered]
    obtain ⟨l', f1, f2, f3, f4, f5⟩ := foldl_run pick c pace x.1 x.2 s acc last last h p1 (by
      intro y hy
      refine hb (x.1, ⟨y.1, tpOf x.1 y.2⟩) ?_
      rw [ho]
      exact List.mem_append.2 (Or.inl (List.mem_map.2 ⟨y, hy, rfl⟩)))
    obtain ⟨h', e⟩ := trySend_ok pick c hw0 (x.2.foldl (addHit c x.1) s).h x.1 (push k).okTp (push k).okSet
    have r := Run.send _ _ _ _ _ x.1 _ _ f3 f2 p2 e
    obtain ⟨s', acc', c1, c2, c3, c4, c5⟩ := ih (k + 1) { x.2.foldl (addHit c x.1) s with h := h' } _ x.1 r p3
      (fun y hy => hb y (by rw [ho]; exact List.mem_append.2 (Or.inr hy)))
    refine ⟨s', acc', ?_, c2, ?_, ?_, ?_⟩
    · unfold chain superchunk
      dsimp only
      rw [e]
      exact c1
    · refine c3.trans ?_
      rw [ho, List.filter_append, List.map_append]
      refine (List.Perm.append_left _ (List.Perm.append_right _ (List.reverse_perm _))).trans ?_
      rw [← List.append_assoc]
      exact List.Perm.append_right _ List.perm_append_comm
    · rw [c4, ho, List.filter_append, List.length_append]
      show (x.2.foldl (addHit c x.1) s).dropped + _ = _
      rw [f4]; omega
    · rw [c5, ho, List.length_append]
      show (x.2.foldl (addHit c x.1) s).found + _ = _
      rw [f5, List.length_map]; omega

theorem weaken {pick : List TrigPrim → Option (TrigPrim × List TrigPrim)} {c : Cfg}
    {pace : Nat → Nat → Prop} {s : TpHandler.St TrigPrim} {acc : List TrigPrim} {last ls : Nat}
    (h : Run start pick c pace s acc last ls) : Run start pick c (fun _ _ => True) s acc last ls := by
  induction h with
  | reset now => exact .reset now
  | add s acc last ls now tp _ hm hb ih => exact .add s acc last ls now tp ih hm hb
  | send s s' acc last ls now okTp okSet _ hm _ he ih => exact .send s s' acc last ls now okTp okSet ih hm trivial he

/-! ### The offered TPs of a channel -/

theorem signalEnds_add (taps : Nat → Int) (ped : Int) (xs : List Int) (k m n : Nat) :
    signalEnds taps ped xs k (m + n) = signalEnds taps ped xs k m ++ signalEnds taps ped xs (k + m) n := by
  unfold signalEnds
  rw [List.range_add, List.map_append, List.filter_append, List.map_map]
  congr 3
  funext j
  show k + (m + j) = k + m + j
  omega

theorem signalEnds_mem {taps : Nat → Int} {ped : Int} {xs : List Int} {k n e : Nat}
    (h : e ∈ signalEnds taps ped xs k n) : k ≤ e ∧ e < k + n := by
  unfold signalEnds at h
  rw [List.mem_filter, List.mem_map] at h
  obtain ⟨⟨j, hj, rfl⟩, -⟩ := h
  rw [List.mem_range] at hj
  omega

theorem tp_eq (ts k j L q n : Nat) (hts : ts + 300 * n < 9223372036854775808) (hk : k < n) (hj : j < 12)
    (hL : L ≤ 12 * k + j) :
    tpOf (ts + 300 * k) ⟨j, q, L⟩
      = ⟨ts + 25 * (12 * k + j - L), (ts + 25 * (12 * k + j - L) + (ts + 25 * (12 * k + j))) / 2, 25 * L, q⟩ := by
  obtain ⟨a, b, c⟩ := tp_word 9223372036854775808 18446744073709551616 18446744073709551616
    (by decide) (by decide) ts k j L n hts hk hj hL
  unfold tpOf
  dsimp only
  rw [a, b, c, Nat.mul_comm L 25]

/-- The hits of a channel in one superchunk, as TPs. -/
theorem chunk_tps (taps : Nat → Int) (ped : Int) (xs : List Int) (ts k n c : Nat) (hits : List (Nat × Hit))
    (hts : ts + 300 * n < 9223372036854775808) (hk : k < n)
    (h : hitsOf c hits = charged (hitsBetween taps ped xs (12 * k) (12 * k) 12)) :
    (hits.map fun h => (ts + 300 * k, (⟨h.1, tpOf (ts + 300 * k) h.2⟩ : TrigPrim))).filter
        (fun x => x.2.channel == c)
      = (signalEnds taps ped xs (12 * k) 12).map fun e =>
          (ts + 300 * (e / 12), (⟨c, runTp taps ped xs ts e⟩ : TrigPrim)) := by
  have e1 : (hits.map fun h => (ts + 300 * k, (⟨h.1, tpOf (ts + 300 * k) h.2⟩ : TrigPrim))).filter
        (fun x => x.2.channel == c)
      = (hitsOf c hits).map fun h => (ts + 300 * k, (⟨c, tpOf (ts + 300 * k) h⟩ : TrigPrim)) := by
    unfold hitsOf
    rw [List.filter_map, List.map_map]
    apply List.map_congr_left
    intro x hx
    rw [List.mem_filter] at hx
    have : x.1 = c := by simpa using hx.2
    simp [this]
  rw [e1, h]
  unfold charged hitsBetween signalEnds
  rw [List.filter_map, List.filter_map, List.map_map, List.map_map, List.filter_filter]
  have e2 : (List.range 12).filter (fun j =>
        ((fun h : Hit => h.charge != 0) ∘ fun j => hitAt taps ped xs (12 * k) (12 * k + j)) j
          && ends (overAt taps ped xs) (12 * k + j))
      = (List.range 12).filter ((fun e => ends (overAt taps ped xs) e && decide (runQ taps ped xs e ≠ 0))
          ∘ fun x => 12 * k + x) := by
    apply List.filter_congr
    intro j _
    show ((hitAt taps ped xs (12 * k) (12 * k + j)).charge != 0 && _) = _
    rw [Bool.and_comm]
    show _ = (ends (overAt taps ped xs) (12 * k + j) && _)
    congr 1
    show (runQ taps ped xs (12 * k + j) != 0) = _
    by_cases q : runQ taps ped xs (12 * k + j) = 0 <;> simp [q]
  rw [e2]
  apply List.map_congr_left
  intro j hj
  rw [List.mem_filter, List.mem_range] at hj
  have hj := hj.1
  have m := (runLen_maximal (overAt taps ped xs) (12 * k + j)).1
  have t := tp_eq ts k j (runL taps ped xs (12 * k + j)) (runQ taps ped xs (12 * k + j)) n hts hk hj
    (by unfold runL; omega)
  show (ts + 300 * k, TrigPrim.mk c (tpOf (ts + 300 * k) (hitAt taps ped xs (12 * k) (12 * k + j))))
    = (ts + 300 * ((12 * k + j) / 12), TrigPrim.mk c (runTp taps ped xs ts (12 * k + j)))
  have e3 : hitAt taps ped xs (12 * k) (12 * k + j)
      = ⟨j, runQ taps ped xs (12 * k + j), runL taps ped xs (12 * k + j)⟩ := by
    unfold hitAt
    rw [show 12 * k + j - 12 * k = j by omega]; rfl
  rw [e3, t, show (12 * k + j) / 12 = k by omega]
  rfl

theorem stamped_tps (taps : Nat → Int) (ped : Int) (xs : List Int) (ts n c : Nat)
    (hts : ts + 300 * n < 9223372036854775808) (out : List (List (Nat × Hit))) :
    ∀ k, k + out.length ≤ n → (∀ (j : Nat) (hits : List (Nat × Hit)), out[j]? = some hits →
      hitsOf c hits = charged (hitsBetween taps ped xs (12 * (k + j)) (12 * (k + j)) 12)) →
    (offered (stamped ts k out)).filter (fun x => x.2.channel == c)
      = (signalEnds taps ped xs (12 * k) (12 * out.length)).map fun e =>
          (ts + 300 * (e / 12), (⟨c, runTp taps ped xs ts e⟩ : TrigPrim)) := by
  induction out with
  | nil => intro k _ _; simp [stamped, offered, signalEnds]
  | cons hits out ih =>
    intro k hk h
    rw [List.length_cons] at hk
    have h0 := h 0 hits rfl
    rw [Nat.add_zero] at h0
    have r := ih (k + 1) (by omega) (fun j hs hj => by
      have := h (j + 1) hs (by simpa using hj)
      rw [this, show k + (j + 1) = k + 1 + j by omega])
    have ho : offered (stamped ts k (hits :: out))
        = (hits.map fun h => (ts + 300 * k, (⟨h.1, tpOf (ts + 300 * k) h.2⟩ : TrigPrim)))
          ++ offered (stamped ts (k + 1) out) := by
      simp [offered, stamped]
    rw [ho, List.filter_append, r, chunk_tps taps ped xs ts k n c hits hts (by omega) h0, List.length_cons,
      show 12 * (out.length + 1) = 12 + 12 * out.length by omega, signalEnds_add, List.map_append,
      show 12 * k + 12 = 12 * (k + 1) by omega]

theorem stamped_paced (ts w : Nat) (hw : 300 ≤ w) (out : List (List (Nat × Hit))) :
    ∀ k a, a ≤ ts + 300 * k → ts + 300 * k ≤ a + 300 →
      Paced (fun a b => b ≤ a + w) a (stamped ts k out) := by
  induction out with
  | nil => intros; trivial
  | cons hits out ih =>
    intro k a h1 h2
    have e : ts + 300 * (k + 1) = ts + 300 * k + 300 := by rw [Nat.mul_succ, Nat.add_assoc]
    have r := ih (k + 1) (ts + 300 * k) (by rw [e]; exact Nat.le_add_right _ _) (Nat.le_of_eq e)
    exact ⟨h1, Nat.le_trans h2 (Nat.add_le_add_left hw a), r⟩

theorem stamped_paced' (ts : Nat) (out : List (List (Nat × Hit))) :
    ∀ k a, a ≤ ts + 300 * k → Paced (fun _ _ => True) a (stamped ts k out) := by
  induction out with
  | nil => intros; trivial
  | cons hits out ih =>
    intro k a h1
    exact ⟨h1, trivial, ih (k + 1) (ts + 300 * k) (by omega)⟩

theorem stamped_last (ts : Nat) (out : List (List (Nat × Hit))) :
    ∀ k a, lastStamp a (stamped ts k out) = if out = [] then a else ts + 300 * (k + out.length - 1) := by
  induction out with
  | nil => intros; rfl
  | cons hits out ih =>
    intro k a
    show lastStamp (ts + 300 * k) (stamped ts (k + 1) out) = _
    rw [ih]
    simp only [List.cons_ne_nil, if_false, List.length_cons]
    split
    · rename_i h; subst h; simp
    · congr 2; omega

/-- A list splits into its parts by channel. -/
theorem split_channels (m : Nat) (l : List (Nat × TrigPrim)) (h : ∀ x ∈ l, x.2.channel < m) :
    l.length = ((List.range m).map fun c => (l.filter fun x => x.2.channel == c).length).sum := by
  induction m generalizing l with
  | zero =>
    cases l with
    | nil => rfl
    | cons x l => exact absurd (h x (by simp)) (by omega)
  | succ m ih =>
    rw [List.range_succ, List.map_append, List.sum_append]
    have r := ih (l.filter fun x => !(x.2.channel == m)) (by
      intro x hx
      rw [List.mem_filter] at hx
      have := h x hx.1
      have : x.2.channel ≠ m := by simpa using hx.2
      omega)
    have e : (List.range m).map (fun c =>
          ((l.filter fun x => !(x.2.channel == m)).filter fun x => x.2.channel == c).length)
        = (List.range m).map fun c => (l.filter fun x => x.2.channel == c).length := by
      apply List.map_congr_left
      intro c hc
      rw [List.mem_range] at hc
      rw [List.filter_filter]
      congr 1
      apply List.filter_congr
      intro x _
      by_cases q : x.2.channel = c
      · simp [q]; omega
      · simp [q]
    rw [e] at r
    rw [← r]
    have : ∀ l' : List (Nat × TrigPrim), l'.length = (l'.filter fun x => !(x.2.channel == m)).length
        + (l'.filter fun x => x.2.channel == m).length := by
      intro l'
      induction l' with
      | nil => rfl
      | cons x l' ih' =>
        rw [List.length_cons, List.filter_cons, List.filter_cons]
        by_cases q : x.2.channel = m
        · simp [q]; omega
        · simp [q]; omega
    simpa using this l

theorem processor_channels (taps : Nat → Int) (old : List Nat) (ho : old.length = bufEntries)
    (ins : List (Nat → Int)) {out : List (List (Nat × Hit))} (e : processor taps old ins = .ok out) :
    ∀ hits ∈ out, ∀ x ∈ hits, x.1 < 96 := by
  cases ins with
  | nil =>
    have : out = [] := by
      have : Outcome.ok ([] : List (List (Nat × Hit))) = Outcome.ok out := e
      injection this with this; exact this.symm
    subst this; simp
  | cons i0 ins =>
    obtain ⟨out', e', -, h'⟩ := C37_within_buffer taps (i0 :: ins) (VInfo.start i0) old ho
    have : Outcome.ok out' = Outcome.ok out := e'.symm.trans e
    injection this with this
    subst this
    exact fun hits hh x hx => (h' hits hh x hx).1

theorem stamped_channels (ts : Nat) (out : List (List (Nat × Hit)))
    (h : ∀ hits ∈ out, ∀ x ∈ hits, x.1 < 96) : ∀ k, ∀ x ∈ offered (stamped ts k out), x.2.channel < 96 := by
  induction out with
  | nil => intro k x hx; simp [stamped, offered] at hx
  | cons hits out ih =>
    intro k x hx
    have ho : offered (stamped ts k (hits :: out))
        = (hits.map fun h => (ts + 300 * k, (⟨h.1, tpOf (ts + 300 * k) h.2⟩ : TrigPrim)))
          ++ offered (stamped ts (k + 1) out) := by
      simp [offered, stamped]
    rw [ho, List.mem_append, List.mem_map] at hx
    rcases hx with ⟨y, hy, rfl⟩ | hx
    · exact h hits (by simp) y hy
    · exact ih (fun hs hh => h hs (List.mem_cons_of_mem _ hh)) (k + 1) x hx

/-! ### C86 -/

/-- The run ending before sample `e` is reported in time: it began less than the timeout before the
superchunk in which it ended. -/
def early (taps : Nat → Int) (ped : Int) (xs : List Int) (timeout e : Nat) : Bool :=
  decide (25 * runL taps ped xs e < timeout + 25 * (e % 12))

theorem inTime_early (taps : Nat → Int) (ped : Int) (xs : List Int) (c : Cfg) (ts ch e : Nat) :
    inTime c (ts + 300 * (e / 12), ⟨ch, runTp taps ped xs ts e⟩) = early taps ped xs c.timeout e := by
  have m := (runLen_maximal (overAt taps ped xs) e).1
  have m' : runL taps ped xs e ≤ e := by unfold runL; omega
  unfold inTime early
  show decide (ts + 300 * (e / 12) < ts + 25 * (e - runL taps ped xs e) + c.timeout) = _
  generalize runL taps ped xs e = L at *
  congr 1
  apply propext
  constructor <;> intro h <;> omega

theorem held_perm {pick : List TrigPrim → Option (TrigPrim × List TrigPrim)} (hp : PickSpec start pick)
    {c : Cfg} {pace : Nat → Nat → Prop} {s : St} {acc : List TrigPrim} {last ls : Nat}
    (h : Run start pick c pace s.h acc last ls) : acc.Perm (held s) := (inv_run hp h).perm

/-- The chain on superchunks with timestamps 300 ticks apart: it completes; the TPs in the sets and
pending ones are, channel by channel, those of the runs over threshold reported in time; the others
are counted as dropped. -/
theorem chain_stamped (taps : Nat → Int) (h7 : taps 7 = 0) (old : List Nat)
    (ho : old.length = bufEntries) (ins : List (Nat → Int)) (hi : ∀ i ∈ ins, TwelveBit i)
    (pick : List TrigPrim → Option (TrigPrim × List TrigPrim)) (hp : PickSpec start pick) (c : Cfg)
    (hw0 : 0 < c.window) (push : Nat → Push) (pace : Nat → Nat → Prop) (ts : Nat)
    (hts : ts + 300 * ins.length + c.window + c.timeout < 9223372036854775808)
    (hpace : ∀ out : List (List (Nat × Hit)), Paced pace ts (stamped ts 0 out)) :
    ∃ out s acc, processor taps old ins = .ok out ∧ chain pick c push 0 fresh (stamped ts 0 out) = .ok s
      ∧ Run start pick c pace s.h acc (ts + 300 * (ins.length - 1)) (ts + 300 * (ins.length - 1))
      ∧ (∀ ch, ch < 96 → ((held s).filter fun t => t.channel == ch).Perm
          (((signalEnds taps (startPed ins ch) (chanStream ins ch) 0 (12 * ins.length)).filter
              (early taps (startPed ins ch) (chanStream ins ch) c.timeout)).map
            fun e => ⟨ch, runTp taps (startPed ins ch) (chanStream ins ch) ts e⟩))
      ∧ (∀ t ∈ held s, t.channel < 96)
      ∧ s.dropped = ((List.range 96).map fun ch =>
          ((signalEnds taps (startPed ins ch) (chanStream ins ch) 0 (12 * ins.length)).filter
            fun e => !early taps (startPed ins ch) (chanStream ins ch) c.timeout e).length).sum
      ∧ s.found = ((List.range 96).map fun ch =>
          (signalEnds taps (startPed ins ch) (chanStream ins ch) 0 (12 * ins.length)).length).sum := by
  obtain ⟨out, e, l, h⟩ := run_hits h7 ho hi
  have hch := stamped_channels ts out (processor_channels taps old ho ins e) 0
  have key : ∀ ch, ch < 96 → (offered (stamped ts 0 out)).filter (fun x => x.2.channel == ch)
      = (signalEnds taps (startPed ins ch) (chanStream ins ch) 0 (12 * ins.length)).map fun e =>
          (ts + 300 * (e / 12), (⟨ch, runTp taps (startPed ins ch) (chanStream ins ch) ts e⟩ : TrigPrim)) := by
    intro ch hc
    have := stamped_tps taps (startPed ins ch) (chanStream ins ch) ts ins.length ch (by omega) out 0
      (by omega) (fun j hits hj => by simpa using h ch hc j hits hj)
    rw [this, l, Nat.mul_zero]
  have hb : ∀ x ∈ offered (stamped ts 0 out), start x.2 + c.window + c.timeout < 18446744073709551616 := by
    intro x hx
    have hx' : x ∈ (offered (stamped ts 0 out)).filter (fun y => y.2.channel == x.2.channel) := by
      rw [List.mem_filter]; exact ⟨hx, by simp⟩
    rw [key _ (hch x hx), List.mem_map] at hx'
    obtain ⟨e, he, hxe⟩ := hx'
    have := signalEnds_mem he
    rw [← hxe]
    show ts + 25 * (e - _) + c.window + c.timeout < _
    omega
  obtain ⟨s, acc, c1, c2, c3, c4, c5⟩ := chain_run pick c hw0 push pace (stamped ts 0 out) 0 fresh [] ts
    (.reset ts) (hpace out) hb
  rw [List.append_nil] at c3
  have hperm := (held_perm hp c2).symm.trans c3
  refine ⟨out, s, acc, e, c1, ?_, ?_, ?_, ?_, ?_⟩
  · have := stamped_last ts out 0 ts
    rw [this] at c2
    have e2 : (if out = [] then ts else ts + 300 * (0 + out.length - 1)) = ts + 300 * (ins.length - 1) := by
      split
      · rename_i h0; rw [← l, h0]; rfl
      · rw [l, Nat.zero_add]
    rw [e2] at c2
    exact c2
  · intro ch hc
    refine (hperm.filter _).trans ?_
    rw [List.filter_map, List.filter_filter]
    have e3 : (offered (stamped ts 0 out)).filter
          (fun x => ((fun t : TrigPrim => t.channel == ch) ∘ fun x : Nat × TrigPrim => x.2) x && inTime c x)
        = ((offered (stamped ts 0 out)).filter (fun x => x.2.channel == ch)).filter (inTime c) := by
      rw [List.filter_filter]
      apply List.filter_congr
      intro x _
      rw [Bool.and_comm]; rfl
    rw [e3, key ch hc, List.filter_map, List.map_map]
    refine List.Perm.of_eq ?_
    have e4 : (inTime c ∘ fun e => (ts + 300 * (e / 12),
          (⟨ch, runTp taps (startPed ins ch) (chanStream ins ch) ts e⟩ : TrigPrim)))
        = early taps (startPed ins ch) (chanStream ins ch) c.timeout := by
      funext e; exact inTime_early ..
    rw [e4]; rfl
  · intro t ht
    have := hperm.subset ht
    rw [List.mem_map] at this
    obtain ⟨x, hx, rfl⟩ := this
    exact hch x (List.mem_filter.1 hx).1
  · rw [c4]
    show 0 + _ = _
    rw [Nat.zero_add, split_channels 96 _ (fun x hx => hch x (List.mem_filter.1 hx).1)]
    congr 1
    apply List.map_congr_left
    intro ch hc
    rw [List.mem_range] at hc
    have e3 : ((offered (stamped ts 0 out)).filter fun x => !inTime c x).filter (fun x => x.2.channel == ch)
        = ((offered (stamped ts 0 out)).filter (fun x => x.2.channel == ch)).filter fun x => !inTime c x := by
      rw [List.filter_filter, List.filter_filter]
      apply List.filter_congr
      intro x _
      rw [Bool.and_comm]
    rw [e3, key ch hc, List.filter_map, List.length_map]
    congr 2
    funext e
    show (!inTime c _) = _
    rw [inTime_early]
  · rw [c5]
    show 0 + _ = _
    rw [Nat.zero_add, split_channels 96 _ hch]
    congr 1
    apply List.map_congr_left
    intro ch hc
    rw [List.mem_range] at hc
    rw [key ch hc, List.length_map]

/-- **C86** where it holds: superchunks with consecutive timestamps 300 ticks apart. The chain from the
samples to the TP sets completes, and for each channel the TPs in the sets and the pending ones are
exactly those of the runs over threshold with non-zero charge that began less than the timeout
before the superchunk in which they ended, each once, with start time and duration taken from the
samples. The other runs are counted as dropped, and all are counted as found. -/
theorem C86_signals_to_tps_partial (taps : Nat → Int) (h7 : taps 7 = 0) (old : List Nat)
    (ho : old.length = bufEntries) (ins : List (Nat → Int)) (hi : ∀ i ∈ ins, TwelveBit i)
    (pick : List TrigPrim → Option (TrigPrim × List TrigPrim)) (hp : PickSpec start pick) (c : Cfg)
    (hw0 : 0 < c.window) (push : Nat → Push) (ts : Nat)
    (hts : ts + 300 * ins.length + c.window + c.timeout < 9223372036854775808) :
    ∃ out s, processor taps old ins = .ok out ∧ chain pick c push 0 fresh (stamped ts 0 out) = .ok s
      ∧ (∀ ch, ch < 96 → ((held s).filter fun t => t.channel == ch).Perm
          (((signalEnds taps (startPed ins ch) (chanStream ins ch) 0 (12 * ins.length)).filter
              (early taps (startPed ins ch) (chanStream ins ch) c.timeout)).map
            fun e => ⟨ch, runTp taps (startPed ins ch) (chanStream ins ch) ts e⟩))
      ∧ (∀ t ∈ held s, t.channel < 96)
      ∧ s.dropped = ((List.range 96).map fun ch =>
          ((signalEnds taps (startPed ins ch) (chanStream ins ch) 0 (12 * ins.length)).filter
            fun e => !early taps (startPed ins ch) (chanStream ins ch) c.timeout e).length).sum
      ∧ s.found = ((List.range 96).map fun ch =>
          (signalEnds taps (startPed ins ch) (chanStream ins ch) 0 (12 * ins.length)).length).sum := by
  obtain ⟨out, s, acc, h1, h2, -, h3⟩ := chain_stamped taps h7 old ho ins hi pick hp c hw0 push
    (fun _ _ => True) ts hts (fun out => stamped_paced' ts out 0 ts (Nat.le_refl _))
  exact ⟨out, s, h1, h2, h3⟩

/-- **C86**, the sets: if the window is at least one superchunk, then at the end of the run every run
over threshold reported in time that began more than two windows and the timeout before the last
superchunk is in a set, whose window is aligned and contains its start time; and the sets are
disjoint in time. -/
theorem C86_old_signals_in_sets (taps : Nat → Int) (h7 : taps 7 = 0) (old : List Nat)
    (ho : old.length = bufEntries) (ins : List (Nat → Int)) (hi : ∀ i ∈ ins, TwelveBit i)
    (pick : List TrigPrim → Option (TrigPrim × List TrigPrim)) (hp : PickSpec start pick) (c : Cfg)
    (hw : 300 ≤ c.window) (push : Nat → Push) (ts : Nat)
    (hts : ts + 300 * ins.length + c.window + c.timeout < 9223372036854775808) :
    ∃ out s, processor taps old ins = .ok out ∧ chain pick c push 0 fresh (stamped ts 0 out) = .ok s
      ∧ (∀ ch, ch < 96 →
          ∀ e ∈ signalEnds taps (startPed ins ch) (chanStream ins ch) 0 (12 * ins.length),
            early taps (startPed ins ch) (chanStream ins ch) c.timeout e = true →
            25 * (e - runL taps (startPed ins ch) (chanStream ins ch) e) + 2 * c.window + c.timeout
              < 300 * (ins.length - 1) →
            ∃ p ∈ s.h.sets, ⟨ch, runTp taps (startPed ins ch) (chanStream ins ch) ts e⟩ ∈ p.1.objects
              ∧ p.1.startTime % c.window = 0 ∧ p.1.endTime = p.1.startTime + c.window
              ∧ p.1.startTime ≤ ts + 25 * (e - runL taps (startPed ins ch) (chanStream ins ch) e)
              ∧ ts + 25 * (e - runL taps (startPed ins ch) (chanStream ins ch) e) < p.1.endTime)
      ∧ s.h.sets.Pairwise (fun p r => p.1.endTime ≤ r.1.startTime) := by
  obtain ⟨out, s, acc, h1, h2, hr, h3, -⟩ := chain_stamped taps h7 old ho ins hi pick hp c (by omega) push
    (fun a b => b ≤ a + c.window) ts hts
    (fun out => stamped_paced ts c.window hw out 0 ts (Nat.le_refl _) (Nat.le_add_right _ _))
  refine ⟨out, s, h1, h2, ?_, (inv_run hp hr).disj⟩
  intro ch hc e he hearly hlate
  have hm : (⟨ch, runTp taps (startPed ins ch) (chanStream ins ch) ts e⟩ : TrigPrim) ∈ held s := by
    have := (h3 ch hc).symm.subset (List.mem_map.2 ⟨e, List.mem_filter.2 ⟨he, hearly⟩, rfl⟩)
    exact (List.mem_filter.1 this).1
  rcases List.mem_append.1 hm with hb | hs
  · have := (C59_bounded_latency start pick hp c (by omega) s.h acc _ hr _ hb).2
    have es : start (⟨ch, runTp taps (startPed ins ch) (chanStream ins ch) ts e⟩ : TrigPrim)
      = ts + 25 * (e - runL taps (startPed ins ch) (chanStream ins ch) e) := rfl
    rw [es] at this
    omega
  · rw [List.mem_flatMap] at hs
    obtain ⟨p, hp1, hp2⟩ := hs
    obtain ⟨o1, o2, -, -, o5⟩ := (inv_run hp hr).ok p hp1
    have := o5 _ hp2
    exact ⟨p, hp1, hp2, o1, o2, this.1, this.2⟩

/-- **C86**, what is lost at the end: in a run that lasts no longer than the timeout no set is sent at
all, whatever the samples; the TPs are pending when the run stops. -/
theorem C86_short_run_sends_nothing (taps : Nat → Int) (h7 : taps 7 = 0) (old : List Nat)
    (ho : old.length = bufEntries) (ins : List (Nat → Int)) (hi : ∀ i ∈ ins, TwelveBit i)
    (pick : List TrigPrim → Option (TrigPrim × List TrigPrim)) (hp : PickSpec start pick) (c : Cfg)
    (hw0 : 0 < c.window) (push : Nat → Push) (ts : Nat)
    (hts : ts + 300 * ins.length + c.window + c.timeout < 9223372036854775808)
    (hshort : 300 * (ins.length - 1) ≤ c.timeout) :
    ∃ out s, processor taps old ins = .ok out ∧ chain pick c push 0 fresh (stamped ts 0 out) = .ok s
      ∧ s.h.sets = [] := by
  obtain ⟨out, s, acc, h1, h2, hr, h3, h4, -⟩ := chain_stamped taps h7 old ho ins hi pick hp c hw0 push
    (fun _ _ => True) ts hts (fun out => stamped_paced' ts out 0 ts (Nat.le_refl _))
  refine ⟨out, s, h1, h2, ?_⟩
  have inv := inv_run hp hr
  cases hs : s.h.sets with
  | nil => rfl
  | cons p rest =>
    exfalso
    have hpm : p ∈ s.h.sets := by rw [hs]; simp
    obtain ⟨-, -, hne, -, hin⟩ := inv.ok p hpm
    have hpast := inv.past p hpm
    obtain ⟨x, hx⟩ := List.exists_mem_of_ne_nil _ hne
    have hxh : x ∈ held s := List.mem_append.2 (Or.inr (List.mem_flatMap.2 ⟨p, hpm, hx⟩))
    have hch := h4 x hxh
    have hxc := (h3 x.channel hch).subset (List.mem_filter.2 ⟨hxh, by simp⟩)
    rw [List.mem_map] at hxc
    obtain ⟨e, -, hxe⟩ := hxc
    have hlt := (hin x hx).2
    have : ts ≤ start x := by
      rw [← hxe]
      exact Nat.le_add_right _ _
    omega

/-! ### Concrete cases -/

/-- The pulse three samples later: it is over threshold for five samples and ends at sample 1 of the
third superchunk. -/
def latePulse : List Int := List.replicate 15 100 ++ [100, 160, 300, 160] ++ List.replicate 17 100

theorem late_range : ∀ y ∈ (100 :: latePulse.tail), 0 ≤ y ∧ y ≤ 4095 := by decide

theorem late_ends : signalEnds fir 100 latePulse 0 36 = [25] := by decide +kernel
theorem late_len : runL fir 100 latePulse 25 = 5 := by decide +kernel

theorem late_cons : latePulse = 100 :: latePulse.tail := by decide
theorem late_fill : (fill latePulse).length = 3 := by decide
theorem late_stream : chanStream (fill latePulse) 0 = latePulse := fill_stream (by decide)
theorem late_ped : startPed (fill latePulse) 0 = 100 := by decide
theorem late_bits : ∀ i ∈ fill latePulse, TwelveBit i := fill_range (late_cons ▸ late_range)

/-- The least element as choice function of the priority queue. -/
abbrev pickTp := pickMin start

/-- **C86 is false**: the pulse is found, but its TP is dropped, because with timeout 100 ticks a signal
of five samples that ends at the start of a superchunk is already too old. -/
theorem C86_dropped_counterexample (push : Nat → Push) :
    ∃ out s, processor fir freshBuf (fill latePulse) = .ok out
      ∧ chain pickTp ⟨100, 300⟩ push 0 fresh (stamped 1000000 0 out) = .ok s
      ∧ (held s).filter (fun t => t.channel == 0) = [] ∧ 1 ≤ s.dropped
      ∧ signalEnds fir 100 latePulse 0 36 = [25] := by
  obtain ⟨out, s, h1, h2, h3, -, h5, -⟩ := C86_signals_to_tps_partial fir rfl freshBuf freshBuf_length
    (fill latePulse) late_bits pickTp (pickMin_spec start) ⟨100, 300⟩ (by decide) push 1000000
    (by rw [late_fill]; decide)
  refine ⟨out, s, h1, h2, ?_, ?_, late_ends⟩
  · have := h3 0 (by decide)
    rw [late_stream, late_ped, late_fill, late_ends] at this
    have e : [25].filter (early fir 100 latePulse 100) = [] := by decide +kernel
    rw [show (⟨100, 300⟩ : Cfg).timeout = 100 from rfl, e] at this
    exact List.perm_nil.1 this
  · rw [h5, List.range_eq_range', show (96 : Nat) = 95 + 1 from rfl, List.range'_succ, List.map_cons,
      List.sum_cons, late_stream, late_ped, late_fill, late_ends]
    have e : ([25].filter fun e => !early fir 100 latePulse (⟨100, 300⟩ : Cfg).timeout e).length = 1 := by
      decide +kernel
    rw [e]; omega

/-- With the default timeout of 100000 ticks the same pulse is accepted and its TP starts at sample 20;
as the run is shorter than the timeout, it is still pending at the end: **C86 is false** also for
signals at the end of a run. -/
theorem C86_unsent_counterexample (push : Nat → Push) :
    ∃ out s, processor fir freshBuf (fill latePulse) = .ok out
      ∧ chain pickTp ⟨100000, 10000⟩ push 0 fresh (stamped 1000000 0 out) = .ok s
      ∧ (⟨0, ⟨1000000 + 25 * 20, 1000000 + 25 * 20 + 62, 125, 298⟩⟩ : TrigPrim) ∈ s.h.buf
      ∧ s.h.sets = [] := by
  obtain ⟨out, s, h1, h2, h3, -⟩ := C86_signals_to_tps_partial fir rfl freshBuf freshBuf_length
    (fill latePulse) late_bits pickTp (pickMin_spec start) ⟨100000, 10000⟩ (by decide) push 1000000
    (by rw [late_fill]; decide)
  obtain ⟨out', s', h1', h2', h3'⟩ := C86_short_run_sends_nothing fir rfl freshBuf freshBuf_length
    (fill latePulse) late_bits pickTp (pickMin_spec start) ⟨100000, 10000⟩ (by decide) push 1000000
    (by rw [late_fill]; decide) (by rw [late_fill]; decide)
  have eo : out' = out := by
    have : Outcome.ok out' = Outcome.ok out := h1'.symm.trans h1
    injection this
  subst eo
  have es : s' = s := by
    have : Outcome.ok s' = Outcome.ok s := h2'.symm.trans h2
    injection this
  subst es
  refine ⟨out', s', h1, h2, ?_, h3'⟩
  have := h3 0 (by decide)
  rw [late_stream, late_ped, late_fill, late_ends] at this
  have e : ([25].filter (early fir 100 latePulse (⟨100000, 10000⟩ : Cfg).timeout)).map
      (fun e => (⟨0, runTp fir 100 latePulse 1000000 e⟩ : TrigPrim))
      = [⟨0, ⟨1000000 + 25 * 20, 1000000 + 25 * 20 + 62, 125, 298⟩⟩] := by decide +kernel
  rw [e] at this
  have hm := this.symm.subset (List.mem_singleton.2 rfl)
  have hm := (List.mem_filter.1 hm).1
  unfold held at hm
  rw [h3'] at hm
  simpa using hm

/-- A pulse in the first superchunks and forty quiet ones after it: a non-trivial case of
`C86_old_signals_in_sets`. -/
def longPulse : List Int := latePulse ++ List.replicate 480 100

theorem long_stream : chanStream (fill longPulse) 0 = longPulse := fill_stream (by decide +kernel)
theorem long_ped : startPed (fill longPulse) 0 = 100 := by decide +kernel
theorem long_fill : (fill longPulse).length = 43 := by decide +kernel
theorem long_bits : ∀ i ∈ fill longPulse, TwelveBit i := fill_range (by decide +kernel)

example (push : Nat → Push) :
    ∃ out s, processor fir freshBuf (fill longPulse) = .ok out
      ∧ chain pickTp ⟨2000, 3000⟩ push 0 fresh (stamped 1000000 0 out) = .ok s
      ∧ ∃ p ∈ s.h.sets, (⟨0, ⟨1000000 + 25 * 20, 1000000 + 25 * 20 + 62, 125, 298⟩⟩ : TrigPrim) ∈ p.1.objects := by
  obtain ⟨out, s, h1, h2, h3, -⟩ := C86_old_signals_in_sets fir rfl freshBuf freshBuf_length
    (fill longPulse) long_bits pickTp (pickMin_spec start) ⟨2000, 3000⟩ (by decide) push 1000000
    (by rw [long_fill]; decide)
  refine ⟨out, s, h1, h2, ?_⟩
  have := h3 0 (by decide) 25
  rw [long_stream, long_ped, long_fill] at this
  have el : runL fir 100 longPulse 25 = 5 := by decide +kernel
  obtain ⟨p, hp, hm, -⟩ := this
    (by
      unfold signalEnds
      rw [List.mem_filter, List.mem_map]
      exact ⟨⟨25, by rw [List.mem_range]; decide, rfl⟩, by decide +kernel⟩)
    (by decide +kernel) (by rw [el]; decide)
  have e : runTp fir 100 longPulse 1000000 25 = ⟨1000000 + 25 * 20, 1000000 + 25 * 20 + 62, 125, 298⟩ := by
    decide +kernel
  rw [e] at hm
  exact ⟨p, hp, hm⟩

end Verif.TpChain
