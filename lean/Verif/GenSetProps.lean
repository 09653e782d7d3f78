import Verif.GenSetModel
import Verif.RetainProps
import Verif.TpRunsProps
/- Property C102: the generated settings of a data link are safe. -/
namespace Verif.GenSet
open Verif.Ring Verif.DataReq Verif.Search Verif.Session

/-! ### The fractions -/

theorem fractions {rnd : ℚ → ℚ} (hs : Conf.Single rnd) (slow : Nat) (file : String) :
    4/5 * (1 - 1 / 16777216) ≤ (params rnd slow file).limitPct ∧
    (params rnd slow file).limitPct ≤ 4/5 * (1 + 1 / 16777216) ∧
    1/10 * (1 - 1 / 16777216) ≤ (params rnd slow file).sizePct ∧
    (params rnd slow file).sizePct ≤ 1/10 * (1 + 1 / 16777216) :=
  ⟨hs.lo _ (by norm_num), hs.hi _ (by norm_num), hs.lo _ (by norm_num), hs.hi _ (by norm_num)⟩

theorem size_ge {slow m : Nat} (h0 : 0 < slow) (h : m * (300 * slow) ≤ 150000000) : m ≤ size slow :=
  (Nat.le_div_iff_mul_le (by omega)).2 h

theorem kept_gen {lim rem : ℚ} (h1 : 4/5 * (1 - 1 / 16777216) ≤ lim)
    (h3 : rem ≤ 1/10 * (1 + 1 / 16777216)) (n : Nat) :
    Retain.Kept lim rem n (7 * n / 10) := by
  have hk : (10 : ℚ) * (7 * n / 10 : ℕ) ≤ 7 * n := by exact_mod_cast Nat.mul_div_le (7 * n) 10
  have hn : (0 : ℚ) ≤ n := Nat.cast_nonneg _
  unfold Retain.Kept
  have e1 : (8999/10000 : ℚ) ≤ 1 - rem * (1 + 1 / 16777216) ^ 2 := by nlinarith
  have e2 : (7999/10000 : ℚ) * n ≤ lim * n * (1 - 1 / 16777216) ^ 2 := by nlinarith
  have e3 := mul_le_mul e1 e2 (by positivity) (by linarith)
  nlinarith

theorem fits_gen {lim rem : ℚ} (h2 : lim ≤ 4/5 * (1 + 1 / 16777216))
    (h3 : 1/10 * (1 - 1 / 16777216) ≤ rem) {n : Nat} (hn : 100 ≤ n) :
    Retain.Fits lim rem n (n / 12) := by
  have hk : (12 : ℚ) * (n / 12 : ℕ) ≤ n := by exact_mod_cast Nat.mul_div_le n 12
  have hn' : (100 : ℚ) ≤ n := by exact_mod_cast hn
  constructor
  · have e2 : lim * n * (1 + 1 / 16777216) ^ 2 ≤ (8001/10000 : ℚ) * n := by nlinarith
    linarith
  · have e2 : (999/10000 : ℚ) * (n - 1) ≤ rem * (n - 1) * (1 - 1 / 16777216) ^ 2 := by nlinarith
    linarith

theorem accepted {rnd : ℚ → ℚ} (hs : Conf.Single rnd) (slow : Nat) (file : String) :
    Cleanup.Accepted (params rnd slow file).limitPct (params rnd slow file).sizePct := by
  obtain ⟨h1, h2, h3, h4⟩ := fractions hs slow file
  refine ⟨?_, ?_, ?_, ?_⟩ <;> linarith

theorem removes {rnd : ℚ → ℚ} (hs : Conf.Single rnd) (slow : Nat) (file : String) :
    (params rnd slow file).sizePct ≤ 1 - 1 / 4194304 := by
  have := (fractions hs slow file).2.2.2
  linarith

/-! ### Property C102 -/

/-- **C102 (accepted)** For every slowdown factor up to 5000 the written settings are accepted, the buffer has at least
100 slots and the configured handler begins to remove below its capacity. -/
theorem C102_accepted (rnd : ℚ → ℚ) (hs : Conf.Single rnd) (h : Conf.Handler) (slow : Nat) (h0 : 0 < slow)
    (h5 : slow ≤ 5000) (file : String) :
    (Conf.conf rnd h (params rnd slow file)).2 = false ∧ 100 ≤ (params rnd slow file).capacity ∧
    (Conf.conf rnd h (params rnd slow file)).1.limitSize < (params rnd slow file).capacity - 1 := by
  have hok := accepted hs slow file
  obtain ⟨c0, c1, c2⟩ := Conf.C72_accepted_not_reported rnd h _ hok
  have hn : 100 ≤ size slow := size_ge h0 (by omega)
  obtain ⟨f1, f2, f3, f4⟩ := fractions hs slow file
  refine ⟨c0, hn, ?_⟩
  have := Retain.limit_of hs hok.1 (by omega) (fits_gen (n := size slow) f2 f3 hn)
  rw [c1]
  show Conf.limitOf rnd (params rnd slow file).limitPct (size slow) < size slow - 1
  omega

/-- The default slowdown 10: 50000 slots. -/
example : size 10 = 50000 ∧ 0 < 10 ∧ 10 ≤ 5000 ∧ Conf.Single id := ⟨by decide, by decide, by decide, Conf.single_id⟩

/-- **C102 (retention)** In every execution of a link with the written settings, during a run the buffer holds the
last 70 % of its size of payloads that it took, or all of them. -/
theorem C102_retained (rnd : ℚ → ℚ) (hs : Conf.Single rnd) (h : Conf.Handler) (slow : Nat) (h0 : 0 < slow)
    (h5 : slow ≤ 5000) (file : String) (c : Cfg) (x : Retain.St)
    (hx : Retain.Reach rnd (Conf.conf rnd h (params rnd slow file)).1 c (size slow) x) (hp : x.s.phase ≠ .idle) :
    ∃ l, Repr x.s.p.q l ∧ l <:+ Retain.taken x.s.log x.s.run ∧
      ∀ recent, recent <:+ Retain.taken x.s.log x.s.run → 10 * recent.length ≤ 7 * size slow → recent <:+ l := by
  have hn : 100 ≤ size slow := size_ge h0 (by omega)
  obtain ⟨f1, f2, f3, f4⟩ := fractions hs slow file
  obtain ⟨l, g1, g2, g3⟩ := Retain.C100_retained rnd hs h (params rnd slow file) c (size slow) (7 * size slow / 10)
    (by omega) (accepted hs slow file) rfl (removes hs slow file) (kept_gen f1 f4 _) x hx hp
  exact ⟨l, g1, g2, fun recent e1 e2 => g3 recent e1 (by omega)⟩

/-- **C102 (nothing refused)** If cleanup passes come at least once every quarter of a second of data (nominally they
come every 50 ms) and none meets a recording, no payload is refused. -/
theorem C102_nothing_refused_partial (rnd : ℚ → ℚ) (hs : Conf.Single rnd) (h : Conf.Handler) (slow : Nat) (h0 : 0 < slow)
    (h5 : slow ≤ 5000) (file : String) (c : Cfg) (x : Retain.St)
    (hx : Retain.Reach rnd (Conf.conf rnd h (params rnd slow file)).1 c (size slow) x)
    (hw : 12 * x.worst ≤ size slow) (hh : x.held = false)
    (ht : ∀ a ∈ x.s.log, a.ts < 18446744073709551615) : ∀ a ∈ x.s.log, a.stored = true := by
  have hn : 100 ≤ size slow := size_ge h0 (by omega)
  obtain ⟨f1, f2, f3, f4⟩ := fractions hs slow file
  exact Retain.C100_nothing_refused_partial rnd hs h (params rnd slow file) c (size slow) (size slow / 12)
    (by omega) (accepted hs slow file) rfl (removes hs slow file) (fits_gen f2 f3 hn) x hx (by omega) hh ht

/-- In a list whose elements are at least `d` apart, the first is at least `(length - 1) * d` before the last. -/
theorem span {d : Nat} {l : List Nat} (h : l.Pairwise (fun a b => a + d ≤ b)) {a z : Nat} (ha : l.head? = some a)
    (hz : l.getLast? = some z) : a + d * (l.length - 1) ≤ z := by
  induction l generalizing a with
  | nil => simp at ha
  | cons b l ih =>
    simp at ha; subst ha
    cases l with
    | nil => simp at hz; simp [hz]
    | cons b' l =>
      have h' := List.pairwise_cons.1 h
      have e1 := h'.1 b' (by simp)
      have e2 := ih h'.2 rfl (by rw [List.getLast?_cons_cons] at hz; exact hz)
      simp only [List.length_cons, Nat.add_sub_cancel] at e2 ⊢
      rw [Nat.mul_succ]; omega

/-- **C102 (two seconds)** Under the same conditions, on a WIB link whose payloads go forward in time, every request for
a window that ends no later than the newest payload and begins within two seconds of data of it (and not before
the first payload of the run) is answered at its first evaluation, without the error bit and with exactly the
frames of the window. -/
theorem C102_two_seconds_partial (rnd : ℚ → ℚ) (hs : Conf.Single rnd) (h : Conf.Handler) (slow : Nat) (h0 : 0 < slow)
    (h5 : slow ≤ 5000) (file : String) (c : Cfg) (hc : c.tick = 25 ∧ c.nf = 12 ∧ c.look = .fixed 12) (x : Retain.St)
    (hx : Retain.Reach rnd (Conf.conf rnd h (params rnd slow file)).1 c (size slow) x) (hp : x.s.phase ≠ .idle)
    (hw : 12 * x.worst ≤ size slow) (hh : x.held = false)
    (hst : Steady 300 (runLog x.s.log x.s.run)) (ht : ∀ a ∈ x.s.log, a.ts < 18446744073709551615)
    (first newest : Nat) (hf : (runLog x.s.log x.s.run).head? = some first)
    (hl : (runLog x.s.log x.s.run).getLast? = some newest) (dr : Request) (h1 : first ≤ dr.wBegin)
    (h2 : newest ≤ dr.wBegin + 100000000 / slow) (h3 : dr.wBegin ≤ newest) (h4 : dr.wEnd ≤ newest) :
    ∃ r fr, answer c x.s dr = .ok r ∧ r.fragment = some fr ∧ fr.header.dataNotFound = false ∧
      ∀ f, f ∈ fr.frames ↔ InWindow 25 12 (runLog x.s.log x.s.run) dr.wBegin dr.wEnd f := by
  have hn : 100 ≤ size slow := size_ge h0 (by omega)
  obtain ⟨f1, f2, f3, f4⟩ := fractions hs slow file
  obtain ⟨hc1, hc2, hc3⟩ := hc
  have hlk : Link c (size slow) := by
    refine ⟨by omega, by omega, by rw [hc1, hc2]; decide, Or.inr (by rw [hc2, hc3]), by omega, ?_⟩
    exact Nat.lt_of_le_of_lt (Nat.div_le_self _ _) (by decide)
  have hne : runLog x.s.log x.s.run ≠ [] := by rintro e; rw [e] at hf; simp at hf
  generalize hK : 7 * size slow / 10 = K at *
  -- 300 (K - 1) ticks are two seconds of data
  have hspan : 100000000 / slow ≤ 300 * (K - 1) := by
    have e1 : 300 * slow * size slow + 300 * slow > 150000000 := by
      have := Nat.lt_div_mul_add (a := 150000000) (b := 300 * slow) (by omega)
      rw [Nat.mul_comm]; exact this
    have e2 : slow * (100000000 / slow) ≤ 100000000 := Nat.mul_div_le _ _
    generalize 100000000 / slow = T at *
    have e3 : 7 * size slow < 10 * K + 10 := by omega
    have e5 : 70 ≤ K := by omega
    obtain ⟨k, rfl⟩ : ∃ k, K = k + 1 := ⟨K - 1, by omega⟩
    by_contra hcon
    have e4 : 300 * k + 1 ≤ T := by simp at hcon; omega
    have e6 : slow * (300 * k + 1) ≤ 100000000 := Nat.le_trans (Nat.mul_le_mul_left _ e4) e2
    have e7 : slow * (7 * size slow) < slow * (10 * (k + 1) + 10) := Nat.mul_lt_mul_of_pos_left e3 h0
    generalize size slow = n at *
    nlinarith
  -- the last K payloads, or all
  let L := runLog x.s.log x.s.run
  let recent := L.drop (L.length - K)
  have hr : recent <:+ L := List.drop_suffix _ _
  have hlen : recent.length ≤ K := by simp only [recent, List.length_drop]; omega
  have hLpos : 0 < L.length := List.length_pos_iff.2 hne
  have hK1 : 0 < K := by omega
  have hrne : recent ≠ [] := by
    intro e
    have := congrArg List.length e
    simp only [recent, List.length_drop, List.length_nil] at this
    omega
  obtain ⟨a, ha⟩ : ∃ a, recent.head? = some a := by
    cases e : recent with
    | nil => exact absurd e hrne
    | cons b _ => exact ⟨b, rfl⟩
  have hz : recent.getLast? = some newest := by
    obtain ⟨u, hu⟩ := hr
    rw [← hl]
    show _ = L.getLast?
    rw [← hu, List.getLast?_append]
    cases e : recent.getLast? with
    | none => rw [List.getLast?_eq_none_iff] at e; exact absurd e hrne
    | some z => rfl
  have hab : a ≤ dr.wBegin := by
    rcases Nat.lt_or_ge K L.length with hlt | hge
    · have := span (hst.1.sublist hr.sublist) ha hz
      have hl' : recent.length = K := by simp only [recent, List.length_drop]; omega
      rw [hl'] at this
      omega
    · have e : recent = L := by simp only [recent]; rw [show L.length - K = 0 by omega]; rfl
      rw [e] at ha
      have : a = first := by rw [hf] at ha; injection ha with ha; exact ha.symm
      omega
  have := Retain.C100_recent_available_partial rnd hs h (params rnd slow file) c (size slow) K (size slow / 12) hlk
    (accepted hs slow file) rfl (removes hs slow file) (by rw [← hK]; exact kept_gen f1 f4 _) (fits_gen f2 f3 hn) x hx hp
    (by omega) hh ht (by rw [hc1, hc2]; exact hst) recent hr hlen a newest ha hz dr hab h3 h4
  rw [hc1, hc2] at this
  exact this

/-- The handler with the settings written by default. -/
def byDefault : Conf.Handler := (Conf.conf id Conf.Handler.new (params id 10 "output_0.out")).1

theorem recvStep {h : Conf.Handler} {n : Nat} {x : Retain.St} {t : Nat} {p : Pipeline.St} {b : Bool}
    (hx : Retain.Reach id h wib n x) (hp : x.s.phase ≠ .idle) (he : Pipeline.receive 300 x.s.p t = .ok (p, b)) :
    Retain.Reach id h wib n (Retain.arrived x { x.s with p := p, log := x.s.log ++ [⟨x.s.run, t, b⟩] }) :=
  .step _ _ hx (.receive _ _ t hp (recv (c := wib) he))

/-- A run with three payloads, the last after a gap, on a link with the settings written by default. -/
theorem demo_run : ∃ x, Retain.Reach id byDefault wib (size 10) x ∧ x.s.phase ≠ .idle ∧ 12 * x.worst ≤ size 10 ∧
    x.held = false ∧ runLog x.s.log x.s.run = [300, 600, 1200] ∧ (∀ a ∈ x.s.log, a.ts < 18446744073709551615) := by
  have r0 : Retain.Reach id byDefault wib (size 10) _ := .init
  have r1 : Retain.Reach id byDefault wib (size 10) _ := .step _ _ r0 (.start _ rfl)
  have r2 := recvStep (t := 300) r1 (by simp [startCmd]) (Pipeline.receive_in_step rfl (by decide) rfl)
  have r3 := recvStep (t := 600) r2 (by simp [Retain.arrived, startCmd])
    (Pipeline.receive_in_step rfl (by decide) rfl)
  have r4 := recvStep (t := 1200) r3 (by simp [Retain.arrived, startCmd])
    (Pipeline.receive_out_of_step (by decide) (by decide) (by decide) rfl)
  refine ⟨_, r4, by simp [Retain.arrived, startCmd], ?_, rfl, rfl, ?_⟩
  · show 12 * 3 ≤ _
    decide
  · simp [Retain.arrived, startCmd, Retain.St.init, Session.St.init]

example : ∃ x, Retain.Reach id byDefault wib (size 10) x ∧ x.s.phase ≠ .idle ∧ 12 * x.worst ≤ size 10 ∧
    x.held = false ∧ Steady 300 (runLog x.s.log x.s.run) ∧ (∀ a ∈ x.s.log, a.ts < 18446744073709551615) ∧
    (runLog x.s.log x.s.run).head? = some 300 ∧ (runLog x.s.log x.s.run).getLast? = some 1200 ∧
    1200 ≤ 400 + 100000000 / 10 := by
  obtain ⟨x, h1, h2, h3, h4, h5, h6⟩ := demo_run
  refine ⟨x, h1, h2, h3, h4, ?_, h6, by rw [h5]; rfl, by rw [h5]; rfl, by decide⟩
  rw [h5]; constructor <;> simp

/-- **C102 (trigger primitives)** For every slowdown factor up to 35 (the default is 10) every cleanup leaves more
payloads than pointers can be under way to the post-processing, so that a run without refused payloads and lost
pointers is post-processed properly: every payload once, in order, from a fresh state. -/
theorem C102_postprocessing (rnd : ℚ → ℚ) (hs : Conf.Single rnd) (h : Conf.Handler) (slow : Nat) (h0 : 0 < slow)
    (h35 : slow ≤ 35) (file : String) :
    TpRuns.Leaves (post rnd (Conf.conf rnd h (params rnd slow file)).1 slow) ∧
    ∀ {P σ ι : Type} (start : σ → Prop) (f : σ → P → ι → Outcome σ) (s : TpRuns.St P σ ι),
      TpRuns.Reach (post rnd (Conf.conf rnd h (params rnd slow file)).1 slow) start f s →
      ∀ e ∈ s.ended, e.refused = 0 → e.lost = 0 → TpRuns.Proper start f e := by
  have hn : 14285 ≤ size slow := size_ge h0 (by omega)
  obtain ⟨f1, f2, f3, f4⟩ := fractions hs slow file
  have hok := accepted hs slow file
  have hk : Retain.Kept (params rnd slow file).limitPct (params rnd slow file).sizePct (size slow) 10001 := by
    generalize (params rnd slow file).limitPct = lim at *
    generalize (params rnd slow file).sizePct = rem at *
    have hn' : (14285 : ℚ) ≤ size slow := by exact_mod_cast hn
    unfold Retain.Kept
    have e1 : (8999/10000 : ℚ) ≤ 1 - rem * (1 + 1 / 16777216) ^ 2 := by nlinarith
    have e2 : (7999/10000 : ℚ) * size slow ≤ lim * size slow * (1 - 1 / 16777216) ^ 2 := by nlinarith
    have e3 := mul_le_mul e1 e2 (by positivity) (by linarith)
    push_cast
    linarith
  have hL : TpRuns.Leaves (post rnd (Conf.conf rnd h (params rnd slow file)).1 slow) := by
    refine ⟨by show 2 ≤ size slow; omega, ?_⟩
    intro o ho
    have := Retain.keeps_of hs h (params rnd slow file) hok rfl (removes hs slow file) hk o ho
    simp only [post]; omega
  exact ⟨hL, fun start f s hr e he h1 h2 => TpRuns.C94_run_partial _ hL start f s hr e he h1 h2⟩

example : 0 < 10 ∧ 10 ≤ 35 ∧ size 10 = 50000 := by decide

/-- At the factor 36 the condition fails: a cleanup may leave 10000 payloads while 10001 pointers are under way. -/
theorem C102_postprocessing_counterexample (h : Conf.Handler) (file : String) :
    ¬ TpRuns.Leaves (post id (Conf.conf id h (params id 36 file)).1 36) := by
  intro hL
  obtain ⟨-, c1, c2⟩ := Conf.C72_accepted_not_reported id h _ (accepted Conf.single_id 36 file)
  have e1 : (Conf.conf id h (params id 36 file)).1.limitSize = 11110 := by
    rw [c1]
    simp only [Conf.limitOf, params, id, size]
    rw [Nat.floor_eq_iff (by positivity)]
    norm_num
  have e2 : Cleanup.toPopOf id (Conf.conf id h (params id 36 file)).1.sizePct 11111 = 1111 := by
    rw [c2]
    simp only [Cleanup.toPopOf, params, id]
    rw [Nat.floor_eq_iff (by positivity)]
    norm_num
  have := hL.2 11111 (by simp only [post]; rw [e1]; decide)
  simp only [post] at this
  rw [e2] at this
  omega

end Verif.GenSet
