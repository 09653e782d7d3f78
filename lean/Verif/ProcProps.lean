import Verif.ProcModel
import Verif.TsCheckProps
import Mathlib.Data.List.Chain
/- Property C78: disorder of PACMAN messages is counted; C41 for the photon-detector emulator mode. -/
namespace Verif.Proc
open Verif.Search

/-- Messages whose timestamp is not larger than that of their predecessor (`p` before the first). -/
def disorders (p : Nat) : List Nat → Nat
  | [] => 0
  | t :: ts => (if t ≤ p then 1 else 0) + disorders t ts

/-- Messages with exactly the timestamp of their predecessor. -/
def repeats (p : Nat) : List Nat → Nat
  | [] => 0
  | t :: ts => (if t = p then 1 else 0) + repeats t ts

theorem pac_fold (ts : List Nat) (s : Pac) (hp : s.prev < 18446744073709551616)
    (h : ∀ t ∈ ts, t < 18446744073709551616) :
    (ts.foldl pacCheck s).errors = s.errors + repeats s.prev ts := by
  induction ts generalizing s with
  | nil => rfl
  | cons t ts ih =>
    have ht := h t (by simp)
    rw [List.foldl_cons, ih _ ht (fun x hx => h x (by simp [hx]))]
    simp only [pacCheck, repeats]
    have : u64 (t + 18446744073709551616 - s.prev) ≤ 0 ↔ t = s.prev := by
      unfold u64; omega
    simp only [this]
    split <;> omega

/-- **C78 (partial)** The error counter equals the number of messages repeating their predecessor's
timestamp. Missing: messages going back in time, which are not counted. -/
theorem C78_pacman_repeats_partial (ts : List Nat) (h : ∀ t ∈ ts, t < 18446744073709551616) :
    (pacRun ts).errors = repeats 0 ts := by
  rw [pacRun, pac_fold ts _ (by decide) h]; simp

example : (pacRun [5, 5, 7, 3, 3]).errors = 2 ∧ disorders 0 [5, 5, 7, 3, 3] = 3 := by decide

/-- **C78 (last timestamp)** What is reported as processed is the timestamp of the last message, zero before the first. -/
theorem C78_pacman_last (ts : List Nat) : (pacRun ts).last = ts.getLastD 0 := by
  rcases List.eq_nil_or_concat ts with rfl | ⟨l, t, rfl⟩
  · rfl
  · simp [pacRun, pacCheck]

example : (pacRun [5, 7, 3]).last = 3 ∧ (pacRun []).last = 0 := by decide

/-- The counter is right exactly as long as no message goes back in time. -/
theorem C78_pacman_exact_iff (ts : List Nat) (h : ∀ t ∈ ts, t < 18446744073709551616) :
    (pacRun ts).errors = disorders 0 ts ↔ List.IsChain (· ≤ ·) (0 :: ts) := by
  rw [C78_pacman_repeats_partial ts h]
  generalize 0 = p
  clear h
  have hle : ∀ (ts : List Nat) p, repeats p ts ≤ disorders p ts := by
    intro ts
    induction ts with
    | nil => intro p; exact Nat.le_refl _
    | cons t ts ih => intro p; have := ih t; simp only [repeats, disorders]; split <;> split <;> omega
  induction ts generalizing p with
  | nil => simp [repeats, disorders]
  | cons t ts ih =>
    have := hle ts t
    rw [List.isChain_cons_cons]
    refine Iff.trans ?_ (and_congr Iff.rfl (ih t))
    simp only [repeats, disorders]
    split <;> split <;> omega

/-- **C78 is false of the code**: any number of messages, each older than the one before, is counted as
free of errors. -/
theorem C78_backwards_counterexample (n : Nat) (hn : n + 1 < 18446744073709551616) :
    let ts := (List.range (n + 1)).map (fun i => n + 1 - i)
    (pacRun ts).errors = 0 ∧ disorders (n + 2) ts = n + 1 := by
  intro ts
  have e : ts = (n + 1) :: (List.range n).map (fun i => n - i) := by
    simp only [ts]
    rw [List.range_succ_eq_map, List.map_cons, List.map_map]
    congr 1
    apply List.map_congr_left
    intro i _
    simp only [Function.comp, Nat.succ_eq_add_one]; omega
  have hlt : ∀ t ∈ ts, t < 18446744073709551616 := by
    intro t ht
    obtain ⟨i, -, rfl⟩ := List.mem_map.1 ht
    omega
  have key0 : ∀ m p, m < p → repeats p ((List.range m).map (fun i => m - i)) = 0 ∧
      disorders p ((List.range m).map (fun i => m - i)) = m := by
    intro m
    induction m with
    | zero => intro p _; exact ⟨rfl, rfl⟩
    | succ m ih =>
      intro p hp
      have e : (List.range (m+1)).map (fun i => m + 1 - i) =
          (m + 1) :: (List.range m).map (fun i => m - i) := by
        rw [List.range_succ_eq_map, List.map_cons, List.map_map]
        congr 1
        apply List.map_congr_left
        intro i _
        simp only [Function.comp, Nat.succ_eq_add_one]; omega
      rw [e]
      obtain ⟨h1, h2⟩ := ih (m + 1) (by omega)
      simp only [repeats, disorders, h1, h2]
      rw [if_neg (by omega), if_pos (by omega)]; omega
  obtain ⟨g1, g2⟩ := key0 n (n + 1) (by omega)
  refine ⟨?_, ?_⟩
  · rw [C78_pacman_repeats_partial ts hlt, e]
    simp only [repeats, g1]; rw [if_neg (by omega)]
  · rw [e]; simp only [disorders, g2]; rw [if_pos (by omega)]; omega

example : (pacRun [3, 2, 1]).errors = 0 := by decide

/-- **C41 (photon detectors)** In emulator mode the frame timestamps are perfectly continuous over all
payloads, beginning with 0 (first payload) or one payload after the last one seen. -/
theorem C41_daphne_emulator_continuous (k : Nat) (s : Dap) (hp : s.prev < 18446744073709551616) :
    (dapRun k s).2 = (List.range (12 * k)).map
      (fun n => (s.prev + (if s.first then 0 else 192) + 16 * n) % 18446744073709551616) := by
  induction k generalizing s with
  | zero => rfl
  | succ k ih =>
    have hfs : (dapEmu s).2 = (List.range 12).map
        (fun i => (s.prev + (if s.first then 0 else 192) + 16 * i) % 18446744073709551616) := by
      have hlt : (if s.first then s.prev else u64 (s.prev + 192)) < 18446744073709551616 := by
        split
        · exact hp
        · exact TsCheck.u64_lt _
      simp only [dapEmu]
      rw [TsCheck.emuLoop_spec _ _ _ hlt]
      apply List.map_congr_left
      intro i _
      unfold u64; split <;> omega
    have hhead : (dapEmu s).1 = ⟨(s.prev + (if s.first then 0 else 192)) % 18446744073709551616, false,
        (s.prev + (if s.first then 0 else 192)) % 18446744073709551616⟩ := by
      have : (dapEmu s).1 = ⟨(dapEmu s).2.headD 0, false, (dapEmu s).2.headD 0⟩ := rfl
      rw [this, hfs]; rfl
    simp only [dapRun]
    rw [ih _ (by rw [hhead]; exact Nat.mod_lt _ (by omega)), hfs, hhead,
      show 12 * (k+1) = 12 + 12 * k by omega, List.range_add, List.map_append, List.map_map]
    congr 1
    apply List.map_congr_left
    intro i _
    simp only [Function.comp, Bool.false_eq_true, if_false]
    omega

example : (dapRun 2 ⟨0, true, 0⟩).2.length = 24 ∧ (dapRun 2 ⟨0, true, 0⟩).2[12]? = some 192 := by decide

/-- Every payload leaves its timestamp as the newest one, for each of the processors. -/
theorem C78_last_is_newest (s : Pac) (d : Dap) (w : TsCheck.St) (step cur : Nat) :
    (pacCheck s cur).last = cur ∧ (dapCheck d cur).last = cur ∧ (TsCheck.check step w cur).last = cur ∧
    (dapEmu d).1.last = (dapEmu d).2.headD 0 := ⟨rfl, rfl, rfl, rfl⟩

end Verif.Proc
