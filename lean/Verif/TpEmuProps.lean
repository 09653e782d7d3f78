import Verif.TpEmuModel
/-
C57: on a file that is a concatenation of well-formed raw TP frames the emulator emits these frames cyclically.
Specification: the frames as lists of words, the file as their concatenation, `fs[i % fs.length]` as the i-th payload.
C65: payload memory is released with the matching routine and nothing is leaked.
-/
namespace Verif.TpEmu

/-- Specification: a frame of the new format with `n` hits: 6 header words, 3 words per hit, the hit count in the upper
half of word 4 and the marker 0xBEEF in the lower half of word 5. -/
def Frame2 (n : Nat) (f : List Nat) : Prop :=
  f.length = 6 + 3 * n ∧ (∀ w, f[4]? = some w → w / 65536 = n) ∧ (∀ w, f[5]? = some w → w % 65536 = 0xBEEF) ∧
  n < 65536

theorem readSrc_mid (pre f post : List Nat) (len : Nat) (h : len ≤ f.length) :
    readSrc (pre ++ f ++ post) pre.length len = .ok (f.take len) := by
  unfold readSrc
  rw [if_pos (by simp; omega)]
  congr 1
  rw [List.append_assoc, List.drop_left, List.take_append_of_le_length h]

theorem getD_take (f : List Nat) (i k : Nat) (h : i < k) : (f.take k).getD i 0 = f.getD i 0 := by
  simp [List.getD_eq_getElem?_getD, h]

theorem frame2_hits {n : Nat} {f : List Nat} (h : Frame2 n f) : f.getD 4 0 / 65536 = n ∧ f.getD 5 0 % 65536 = 48879 := by
  obtain ⟨h1, h2, h3, _⟩ := h
  have e4 : f[4]? = some (f.getD 4 0) := by
    rw [List.getD_eq_getElem?_getD, List.getElem?_eq_getElem (by omega)]; rfl
  have e5 : f[5]? = some (f.getD 5 0) := by
    rw [List.getD_eq_getElem?_getD, List.getElem?_eq_getElem (by omega)]; rfl
  exact ⟨h2 _ e4, h3 _ e5⟩

theorem setNhits_words (blk : List Nat) (n : Nat) (h : 9 < blk.length) (hn : n < 65536) :
    ∃ b, setNhits blk n = .ok b ∧ b.length = blk.length ∧ hitsOf b = n := by
  refine ⟨_, by unfold setNhits; rw [if_pos h], by simp, ?_⟩
  unfold hitsOf
  rw [List.getD_eq_getElem?_getD, List.getElem?_set_self (by simp; omega)]
  simp only [Option.getD_some]
  omega

theorem unpack2_mid (pre f post : List Nat) (g : Nat → Nat) (n : Nat) (h : Frame2 n f) (hn : 2 ≤ n) :
    unpack2 (pre ++ f ++ post) g n pre.length = .ok f := by
  obtain ⟨b, hb, hl, hh⟩ := setNhits_words ((List.range (6 + 3 * n)).map g) n (by simp; omega) h.2.2.2
  have hl' : b.length = 6 + 3 * n := by simpa using hl
  have hf : frameWords b = f.length := by unfold frameWords; rw [hh, h.1]
  unfold unpack2
  simp only [hb, Outcome.bind_ok]
  rw [hf, readSrc_mid _ _ _ _ (Nat.le_refl _), List.take_length]
  simp only [Outcome.bind_ok]
  unfold copyTo
  rw [if_pos (by rw [h.1]; omega), List.take_length, List.drop_eq_nil_of_le (by rw [h.1]; omega), List.append_nil]

theorem frame_len (fs : List (List Nat)) (hf : ∀ f ∈ fs, ∃ n, 2 ≤ n ∧ Frame2 n f) : fs.flatten.length % 3 = 0 := by
  induction fs with
  | nil => rfl
  | cons f fs ih =>
    obtain ⟨n, _, h⟩ := hf f (by simp)
    have := ih (fun f hf' => hf f (by simp [hf']))
    rw [List.flatten_cons, List.length_append, h.1]
    omega

theorem iter_frame (fs : List (List Nat)) (hf : ∀ f ∈ fs, ∃ n, 2 ≤ n ∧ Frame2 n f) (g : Nat → Nat) (j : Nat)
    (f : List Nat) (hj : fs[j]? = some f) (s : St)
    (hoff : s.off = ((fs.take j).flatten).length ∨ j = 0 ∧ s.off = fs.flatten.length) :
    iter fs.flatten g s = .ok ⟨((fs.take (j + 1)).flatten).length, s.out ++ [(f, .byMalloc)], s.leaked + 1⟩ := by
  have hjl : j < fs.length := (List.getElem?_eq_some_iff.1 hj).1
  have hfe : fs[j] = f := (List.getElem?_eq_some_iff.1 hj).2
  have hmem : f ∈ fs := hfe ▸ List.getElem_mem hjl
  obtain ⟨n, hn2, hF⟩ := hf f hmem
  have hsplit : fs.flatten = (fs.take j).flatten ++ f ++ (fs.drop (j + 1)).flatten := by
    conv => lhs; rw [← List.take_append_drop j fs, List.drop_eq_getElem_cons hjl]
    simp [hfe, List.flatten_append]
  have htake : (fs.take (j + 1)).flatten = (fs.take j).flatten ++ f := by
    rw [List.take_succ_eq_append_getElem hjl]
    simp [hfe, List.flatten_append]
  have hnum : numElem fs.flatten * 3 = fs.flatten.length := by
    have := frame_len fs hf
    unfold numElem; omega
  have hlen : fs.flatten.length = (fs.take j).flatten.length + f.length + ((fs.drop (j + 1)).flatten).length := by
    conv => lhs; rw [hsplit]
    simp
    omega
  have hoff' : (if s.off = numElem fs.flatten * 3 then 0 else s.off) = ((fs.take j).flatten).length := by
    rw [hnum]
    rcases hoff with h | ⟨rfl, h⟩
    · rw [if_neg, h]
      rw [h, hlen, hF.1]; omega
    · rw [if_pos h]; simp
  unfold iter
  simp only [hoff']
  generalize hsrc : fs.flatten = src at *
  rw [hsplit, readSrc_mid _ _ _ _ (by rw [hF.1]; omega)]
  simp only [Outcome.bind_ok, unpack, getD_take f 5 6 (by decide), (frame2_hits hF).2, if_true]
  have hh : hitsOf (f.take 6) = n := by
    unfold hitsOf; rw [getD_take f 4 6 (by decide)]; exact (frame2_hits hF).1
  rw [hh, unpack2_mid _ _ _ g n hF hn2]
  simp only [Outcome.bind_ok]
  have hfw : frameWords f = f.length := by
    unfold frameWords hitsOf; rw [(frame2_hits hF).1, hF.1]
  rw [hfw, htake, List.length_append]

/-- C57 for the new format and frames with at least two hits: for every non-empty list of frames and every number of
rounds, the emulator emits the frames of the file cyclically and unchanged, whatever is in fresh heap memory, and never
leaves the file or a heap block. Missing: frames with one hit and the old format, where the code fails
(counterexamples below). -/
theorem C57_replay_partial (fs : List (List Nat)) (hne : fs ≠ []) (hf : ∀ f ∈ fs, ∃ n, 2 ≤ n ∧ Frame2 n f)
    (g : Nat → Nat) (N : Nat) :
    ∃ s, run fs.flatten g N = .ok s ∧ s.out.length = N ∧
      ∀ i, i < N → (s.out.map Prod.fst)[i]? = fs[i % fs.length]? := by
  have hL : 0 < fs.length := List.length_pos_iff.2 hne
  suffices H : ∃ s, run fs.flatten g N = .ok s ∧ s.out.length = N ∧
      (∀ i, i < N → (s.out.map Prod.fst)[i]? = fs[i % fs.length]?) ∧
      (s.off = ((fs.take (N % fs.length)).flatten).length ∨ N % fs.length = 0 ∧ s.off = fs.flatten.length) by
    obtain ⟨s, h1, h2, h3, _⟩ := H
    exact ⟨s, h1, h2, h3⟩
  induction N with
  | zero => exact ⟨_, rfl, rfl, by omega, .inl (by simp)⟩
  | succ N ih =>
    obtain ⟨s, h1, h2, h3, h4⟩ := ih
    have hjl : N % fs.length < fs.length := Nat.mod_lt _ hL
    have hit := iter_frame fs hf g (N % fs.length) (fs[N % fs.length]) (List.getElem?_eq_getElem hjl) s h4
    refine ⟨_, by unfold run; simp only [h1, Outcome.bind_ok]; exact hit, by simp [h2], ?_, ?_⟩
    · intro i hi
      simp only [List.map_append, List.map_cons, List.map_nil]
      by_cases hiN : i < N
      · rw [List.getElem?_append_left (by simp [h2]; exact hiN)]
        exact h3 i hiN
      · have : i = N := by omega
        subst this
        rw [List.getElem?_append_right (by simp [h2])]
        simp [h2, List.getElem?_eq_getElem hjl]
    · by_cases hlast : N % fs.length + 1 = fs.length
      · right
        have e0 : (N + 1) % fs.length = 0 := by
          rw [Nat.add_mod]
          by_cases h1' : fs.length = 1
          · rw [h1', Nat.mod_one]
          · rw [Nat.mod_eq_of_lt (a := 1) (by omega), hlast, Nat.mod_self]
        refine ⟨e0, ?_⟩
        simp only [hlast, List.take_length]
      · left
        have e1 : (N + 1) % fs.length = N % fs.length + 1 := by
          rw [Nat.add_mod]
          by_cases h1' : fs.length = 1
          · omega
          · rw [Nat.mod_eq_of_lt (a := 1) (by omega), Nat.mod_eq_of_lt (by omega)]
        simp only [e1]

/-- A frame of the new format with two hits. -/
def exFrame (t : Nat) : List Nat := [0, t, 0, 0, 2 * 65536, 0xBEEF, 10, 11, 12, 20, 21, 22]

example : Frame2 2 (exFrame 5) := by
  refine ⟨rfl, ?_, ?_, by decide⟩ <;> intro w hw <;> simp [exFrame] at hw <;> subst hw <;> decide

example : (run ([exFrame 5, exFrame 6].flatten) (fun _ => 9) 3).bind (fun s => .ok (s.out.map Prod.fst)) =
    .ok [exFrame 5, exFrame 6, exFrame 5] := by decide

/-- C57 is false of every frame of the new format with one hit (or none): recording the hit count writes behind the
allocated block. -/
theorem C57_single_hit_counterexample (src : List Nat) (g : Nat → Nat) (n off : Nat) (hn : n < 2) :
    unpack2 src g n off = .ub .outOfBounds := by
  have h : setNhits ((List.range (6 + 3 * n)).map g) n = .ub .outOfBounds := by
    unfold setNhits
    rw [if_neg (by simp; omega)]
  unfold unpack2
  simp only [h, Outcome.bind_ub]

/-- C57 is false of a file whose last frame is cut off. -/
theorem C57_truncated_counterexample :
    run ((exFrame 5).take 9) (fun _ => 0) 1 = .ub .outOfBounds := by decide

/-! ### The old format -/

theorem countSub_mid (ped : List Nat) (hp : ped[2]? = some 0xDEADBEEF) (post : List Nat) (off : Nat)
    (subs : List (List Nat)) (hs : ∀ x ∈ subs, x.length = 3 ∧ x[2]? ≠ some 0xDEADBEEF)
    (pre : List Nat) (n fuel : Nat) (hn : 1 ≤ n) (hoff : off + (n - 1) * 3 = pre.length) (hfuel : subs.length < fuel) :
    countSub (pre ++ (subs.flatten ++ (ped ++ post))) off n fuel = .ok (n + subs.length) := by
  induction subs generalizing pre n fuel with
  | nil =>
    obtain ⟨fuel, rfl⟩ : ∃ k, fuel = k + 1 := ⟨fuel - 1, by simp at hfuel; omega⟩
    unfold countSub
    have h2 : 2 < ped.length := (List.getElem?_eq_some_iff.1 hp).1
    have : (pre ++ ([].flatten ++ (ped ++ post)))[off + (n - 1) * 3 + 2]? = some 0xDEADBEEF := by
      rw [hoff, List.getElem?_append_right (by omega)]
      simp only [List.flatten_nil, List.nil_append, Nat.add_sub_cancel_left]
      rw [List.getElem?_append_left h2, hp]
    rw [this]
    simp
  | cons x subs ih =>
    obtain ⟨fuel, rfl⟩ : ∃ k, fuel = k + 1 := ⟨fuel - 1, by simp at hfuel; omega⟩
    obtain ⟨hx3, hx2⟩ := hs x (by simp)
    unfold countSub
    have : (pre ++ ((x :: subs).flatten ++ (ped ++ post)))[off + (n - 1) * 3 + 2]? = x[2]? := by
      rw [hoff, List.getElem?_append_right (by omega), Nat.add_sub_cancel_left, List.flatten_cons, List.append_assoc,
        List.getElem?_append_left (by omega)]
    rw [this]
    have hx : x[2]? = some (x[2]'(by omega)) := List.getElem?_eq_getElem _
    rw [hx] at hx2 ⊢
    have hne : x[2]'(by omega) ≠ 0xDEADBEEF := fun h => hx2 (by rw [h])
    simp only [hne, if_false]
    have hih := ih (fun y hy => hs y (by simp [hy])) (pre ++ x) (n + 1) fuel (by omega)
      (by rw [List.length_append, hx3, ← hoff]; have : n - 1 + 1 = n := by omega
          rw [show n + 1 - 1 = n - 1 + 1 from by omega, Nat.add_mul]; omega)
      (by simp at hfuel; omega)
    simp only [List.flatten_cons, List.length_cons, List.append_assoc] at hih ⊢
    rw [hih]
    congr 1; omega

/-- Specification: the old format. `h` is the header subframe, `ped` the pedestal subframe ending with 0xDEADBEEF, and
`hits` the hit subframes between them. -/
structure Frame1 (h ped : List Nat) (hits : List (List Nat)) : Prop where
  hl : h.length = 3
  pl : ped.length = 3
  ht : ∀ x ∈ hits, x.length = 3 ∧ x[2]? ≠ some 0xDEADBEEF
  hh : h[2]? ≠ some 0xDEADBEEF
  hp : ped[2]? = some 0xDEADBEEF
  few : hits.length < 65536

/-- What a frame of the old format becomes, for every such frame with at least two hits anywhere in a file: the
subframes in the new order, the hit count filled in, and the first word of the second hit replaced by the number of
hits. -/
theorem C57_old_format_effect (h ped : List Nat) (hits : List (List Nat)) (hF : Frame1 h ped hits)
    (h2 : 2 ≤ hits.length) (pre post : List Nat) (g : Nat → Nat) :
    unpack1 (pre ++ (h ++ hits.flatten ++ ped) ++ post) g pre.length =
      .ok (((h ++ ped ++ hits.flatten).set 9 hits.length).set 4
        (ped.getD 1 0 % 65536 + hits.length * 65536)) := by
  obtain ⟨hl, pl, ht, hh, hp, few⟩ := hF
  have hlen : hits.flatten.length = hits.length * 3 := by
    rw [List.length_flatten]
    clear h2 few
    induction hits with
    | nil => rfl
    | cons x xs ih =>
      have := ih (fun y hy => ht y (by simp [hy]))
      have := (ht x (by simp)).1
      simp only [List.map_cons, List.sum_cons, List.length_cons] at *
      omega
  have hcount : countSub (pre ++ (h ++ hits.flatten ++ ped) ++ post) pre.length 1
      ((pre ++ (h ++ hits.flatten ++ ped) ++ post).length + 1) = .ok (hits.length + 2) := by
    have := countSub_mid ped hp post pre.length (h :: hits)
      (by intro x hx; rcases List.mem_cons.1 hx with rfl | hx
          · exact ⟨hl, hh⟩
          · exact ht x hx) pre 1 ((pre ++ (h ++ hits.flatten ++ ped) ++ post).length + 1)
      (by omega) (by omega) (by simp only [List.length_cons, List.length_append, hlen]; omega)
    simp only [List.flatten_cons, List.append_assoc, List.length_cons] at this ⊢
    rw [this]
    congr 1; omega
  unfold unpack1
  rw [hcount]
  simp only [Outcome.bind_ok, Nat.add_sub_cancel]
  rw [if_neg (by omega)]
  have r1 : readSrc (pre ++ (h ++ hits.flatten ++ ped) ++ post) pre.length 3 = .ok h := by
    have := readSrc_mid pre h (hits.flatten ++ ped ++ post) 3 (by omega)
    rw [List.take_of_length_le (by omega)] at this
    simpa [List.append_assoc] using this
  have r2 : readSrc (pre ++ (h ++ hits.flatten ++ ped) ++ post) (pre.length + (hits.length + 2 - 1) * 3) 3 = .ok ped := by
    have := readSrc_mid (pre ++ (h ++ hits.flatten)) ped post 3 (by omega)
    rw [List.take_of_length_le (by omega)] at this
    rw [show (pre ++ (h ++ hits.flatten)).length = pre.length + (hits.length + 2 - 1) * 3 from by
      simp only [List.length_append, hl, hlen]; omega] at this
    simpa [List.append_assoc] using this
  have r3 : readSrc (pre ++ (h ++ hits.flatten ++ ped) ++ post) (pre.length + 3) (hits.length * 3) = .ok hits.flatten := by
    have := readSrc_mid (pre ++ h) hits.flatten (ped ++ post) (hits.length * 3) (by omega)
    rw [List.take_of_length_le (by omega), List.length_append, hl] at this
    simpa [List.append_assoc] using this
  rw [r1, r2, r3]
  simp only [Outcome.bind_ok]
  obtain ⟨b, hb, hbl, hbh⟩ := setNhits_words ((List.range (6 + 3 * hits.length)).map g) hits.length
    (by simp; omega) few
  have hbl' : b.length = 6 + 3 * hits.length := by simpa using hbl
  rw [hb]
  simp only [Outcome.bind_ok]
  have hfw : frameWords b = 6 + 3 * hits.length := by unfold frameWords; rw [hbh]
  have htot : (h ++ ped ++ hits.flatten).length = 6 + 3 * hits.length := by
    simp only [List.length_append, hl, pl, hlen]; omega
  have hcopy : copyTo b (h ++ ped ++ hits.flatten) (frameWords b) = .ok (h ++ ped ++ hits.flatten) := by
    unfold copyTo
    rw [hfw, if_pos (by omega), List.take_of_length_le (by omega), List.drop_eq_nil_of_le (by omega), List.append_nil]
  rw [hcopy]
  simp only [Outcome.bind_ok]
  unfold setNhits
  rw [if_pos (by omega), Nat.mod_eq_of_lt few]
  have : (h ++ ped ++ hits.flatten).getD 4 0 = ped.getD 1 0 := by
    simp only [List.getD_eq_getElem?_getD, List.append_assoc]
    rw [List.getElem?_append_right (by omega), List.getElem?_append_left (by omega), hl]
  rw [this]

/-- Such a frame. -/
example : Frame1 [1, 2, 3] [30, 31, 0xDEADBEEF] [[10, 11, 12], [20, 21, 22]] :=
  ⟨rfl, rfl, by decide, by decide, by decide, by decide⟩

/-- The old format, concretely: the start and end time of the second hit are lost. -/
theorem C57_old_format_counterexample :
    unpack1 [1, 2, 3, 10, 11, 12, 20, 21, 22, 30, 31, 0xDEADBEEF] (fun _ => 0) 0 =
      .ok [1, 2, 3, 30, 2 * 65536 + 31, 0xDEADBEEF, 10, 11, 12, 2, 21, 22] := by decide

example : Frame1 [1, 2, 3] [30, 31, 0xDEADBEEF] [[10, 11, 12], [20, 21, 22]] :=
  ⟨rfl, rfl, by decide, by decide, by decide, by decide⟩

/-! ### C65: memory of the emitted payloads -/

/-- C65 is false in every round: each emitted payload is released by a routine that does not match its allocation, and
each round gives up one object without releasing it. -/
theorem C65_memory_counterexample (src : List Nat) (g : Nat → Nat) (N : Nat) (s : St) (h : run src g N = .ok s) :
    s.leaked = N ∧ s.out.length = N ∧ ∀ p ∈ s.out, destroy p = .ub .badFree := by
  induction N generalizing s with
  | zero =>
    simp only [run] at h
    cases h
    exact ⟨rfl, rfl, by simp⟩
  | succ N ih =>
    unfold run at h
    cases hr : run src g N with
    | ub w => rw [hr] at h; simp at h
    | throws e => rw [hr] at h; simp at h
    | ok s' =>
      rw [hr] at h
      simp only [Outcome.bind_ok] at h
      obtain ⟨i1, i2, i3⟩ := ih s' hr
      unfold iter at h
      simp only at h
      generalize (if s'.off = numElem src * 3 then 0 else s'.off) = off at h
      cases hd : readSrc src off 6 with
      | ub w => rw [hd] at h; simp at h
      | throws e => rw [hd] at h; simp at h
      | ok hdr =>
        rw [hd] at h
        simp only [Outcome.bind_ok] at h
        generalize unpack src g hdr off = b at h
        cases b with
        | ub w => simp at h
        | throws e => simp at h
        | ok blk =>
          simp only [Outcome.bind_ok, Outcome.ok.injEq] at h
          subst h
          refine ⟨by simp [i1], by simp [i2], ?_⟩
          intro p hp
          rcases List.mem_append.1 hp with hp | hp
          · exact i3 p hp
          · simp only [List.mem_singleton] at hp
            subst hp; rfl

example : ∃ s, run (exFrame 5) (fun _ => 0) 2 = .ok s := by
  obtain ⟨s, h, _⟩ := C57_replay_partial [exFrame 5] (by simp) (by
    intro f hf
    simp only [List.mem_singleton] at hf
    subst hf
    refine ⟨2, by decide, rfl, ?_, ?_, by decide⟩ <;> intro w hw <;> simp [exFrame] at hw <;> subst hw <;> decide)
    (fun _ => 0) 2
  exact ⟨s, by simpa using h⟩

end Verif.TpEmu
