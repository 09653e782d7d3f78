import Verif.PinModel
/- Property C110: names of worker threads, and pinning threads by name. -/
namespace Verif.Pin

/-! ### Decimal numbers -/

theorem digit_toNat {d : Nat} (h : d < 10) : (digit d).toNat = 48 + d := by
  have : d = 0 ∨ d = 1 ∨ d = 2 ∨ d = 3 ∨ d = 4 ∨ d = 5 ∨ d = 6 ∨ d = 7 ∨ d = 8 ∨ d = 9 := by omega
  rcases this with h | h | h | h | h | h | h | h | h | h <;> subst h <;> rfl

/-- Value of a string of digits. -/
def val (l : List Char) : Nat := l.foldl (fun a c => 10 * a + (c.toNat - 48)) 0

theorem val_decF : ∀ (fuel n : Nat), n < fuel → val (decF fuel n) = n
  | 0, _, h => by omega
  | fuel + 1, n, h => by
    unfold decF
    split
    · next hn => simp [val, digit_toNat hn]
    · have hd := digit_toNat (Nat.mod_lt n (show 0 < 10 by decide))
      have ih := val_decF fuel (n / 10) (by omega)
      unfold val at ih ⊢
      rw [List.foldl_append, ih]
      simp only [List.foldl_cons, List.foldl_nil, hd]
      omega

theorem decF_ne_nil {fuel n : Nat} (h : n < fuel) : decF fuel n ≠ [] := by
  cases fuel with
  | zero => omega
  | succ f => unfold decF; split <;> simp

theorem decF_digits : ∀ (fuel n : Nat), ∀ c ∈ decF fuel n, c ≠ '-'
  | 0, _ => by simp [decF]
  | fuel + 1, n => by
    have key : ∀ d, d < 10 → digit d ≠ '-' := by
      intro d hd h
      have := digit_toNat hd
      rw [h] at this
      have h45 : ('-' : Char).toNat = 45 := rfl
      omega
    unfold decF
    split
    · next hn => intro c hc; rw [List.mem_singleton] at hc; rw [hc]; exact key n hn
    · intro c hc
      rcases List.mem_append.1 hc with hc | hc
      · exact decF_digits fuel _ c hc
      · rw [List.mem_singleton] at hc; rw [hc]; exact key _ (Nat.mod_lt n (by decide))

theorem decF_length : ∀ (fuel n k : Nat), n < 10 ^ (k + 1) → (decF fuel n).length ≤ k + 1
  | 0, _, _, _ => by simp [decF]
  | fuel + 1, n, k, h => by
    unfold decF
    split
    · simp
    · next hn =>
      cases k with
      | zero => simp at h; omega
      | succ k =>
        have : n / 10 < 10 ^ (k + 1) := by
          rw [Nat.div_lt_iff_lt_mul (by decide)]
          rw [Nat.pow_succ] at h
          exact h
        have := decF_length fuel (n / 10) k this
        simp only [List.length_append, List.length_singleton]
        omega

/-- A name is cut at its last hyphen. -/
theorem split_last : ∀ (a b x y : List Char), (∀ c ∈ x, c ≠ '-') → (∀ c ∈ y, c ≠ '-') → a ++ '-' :: x = b ++ '-' :: y →
    a = b ∧ x = y
  | [], [], x, y, _, _, h => by simpa using h
  | [], b :: bs, x, y, hx, _, h => by
    simp only [List.nil_append, List.cons_append, List.cons.injEq] at h
    exact absurd rfl (hx '-' (by rw [h.2]; simp))
  | a :: as, [], x, y, _, hy, h => by
    simp only [List.nil_append, List.cons_append, List.cons.injEq] at h
    exact absurd rfl (hy '-' (by rw [← h.2]; simp))
  | a :: as, b :: bs, x, y, hx, hy, h => by
    simp only [List.cons_append, List.cons.injEq] at h
    obtain ⟨h1, h2⟩ := split_last as bs x y hx hy h.2
    exact ⟨by rw [h.1, h1], h2⟩

/-- Full names identify role and number. -/
theorem fullName_inj {r r' : List Char} {t t' : Int} (hr : r.getLast? ≠ some '-') (hr' : r'.getLast? ≠ some '-')
    (h : fullName r t = fullName r' t') : r = r' ∧ t = t' := by
  unfold fullName dec at h
  match t, t' with
  | .ofNat n, .ofNat m =>
    obtain ⟨h1, h2⟩ := split_last _ _ _ _ (decF_digits _ _) (decF_digits _ _) h
    have e1 := val_decF (n + 1) n (by omega)
    have e2 := val_decF (m + 1) m (by omega)
    rw [h2] at e1
    exact ⟨h1, by rw [← e1, e2]⟩
  | .negSucc n, .negSucc m =>
    have h' : (r ++ ['-']) ++ '-' :: decF (n + 2) (n + 1) = (r' ++ ['-']) ++ '-' :: decF (m + 2) (m + 1) := by simpa using h
    obtain ⟨h1, h2⟩ := split_last _ _ _ _ (decF_digits _ _) (decF_digits _ _) h'
    have e1 := val_decF (n + 2) (n + 1) (by omega)
    have e2 := val_decF (m + 2) (m + 1) (by omega)
    rw [h2] at e1
    have : n = m := by omega
    exact ⟨List.append_cancel_right h1, by rw [this]⟩
  | .ofNat n, .negSucc m =>
    have h' : r ++ '-' :: decF (n + 1) n = (r' ++ ['-']) ++ '-' :: decF (m + 2) (m + 1) := by simpa using h
    obtain ⟨h1, -⟩ := split_last _ _ _ _ (decF_digits _ _) (decF_digits _ _) h'
    exact absurd (by rw [h1]; simp) hr
  | .negSucc n, .ofNat m =>
    have h' : (r ++ ['-']) ++ '-' :: decF (n + 2) (n + 1) = r' ++ '-' :: decF (m + 1) m := by simpa using h
    obtain ⟨h1, -⟩ := split_last _ _ _ _ (decF_digits _ _) (decF_digits _ _) h'
    exact absurd (by rw [← h1]; simp) hr'

/-! ### Names of threads -/

/-- **C110 (names, partial)** Names of at most fifteen characters identify role and number; the full statement, without the
bound, is false: `C110_truncated_counterexample`. -/
theorem C110_names_distinct_partial (r r' : List Char) (t t' : Int) (hr : r.getLast? ≠ some '-') (hr' : r'.getLast? ≠ some '-')
    (hl : (fullName r t).length ≤ 15) (hl' : (fullName r' t').length ≤ 15) (h : threadName r t = threadName r' t') :
    r = r' ∧ t = t' := by
  unfold threadName at h
  rw [List.take_of_length_le hl, List.take_of_length_le hl'] at h
  exact fullName_inj hr hr' h

theorem roles_ok : ∀ r ∈ linkRoles, r.getLast? ≠ some '-' ∧ r.length ≤ 9 := by decide +kernel

theorem roles_distinct : linkRoles.Nodup ∧ linkRoles.length = 5 := by decide +kernel

/-- **C110 (links)** The five threads of a link for consuming, time synchronisation, requests, recording and cleanup: on
links with numbers below 100000 any two of them, of the same link or of different ones, have different names. -/
theorem C110_link_threads (i j : Nat) (r r' : List Char) (hr : linkRoles[i]? = some r) (hr' : linkRoles[j]? = some r')
    (a b : Nat) (ha : a < 100000) (hb : b < 100000) (h : threadName r a = threadName r' b) : i = j ∧ a = b := by
  have hlen : ∀ r ∈ linkRoles, ∀ n : Nat, n < 100000 → (fullName r n).length ≤ 15 := by
    intro r hr n hn
    have h1 := (roles_ok r hr).2
    have h2 := decF_length (n + 1) n 4 (by omega)
    simp only [fullName, dec, List.length_append, List.length_cons]
    omega
  have m := List.mem_of_getElem? hr
  have m' := List.mem_of_getElem? hr'
  obtain ⟨h1, h2⟩ := C110_names_distinct_partial r r' a b (roles_ok r m).1 (roles_ok r' m').1 (hlen r m a ha)
    (hlen r' m' b hb) h
  refine ⟨?_, by exact_mod_cast h2⟩
  subst h1
  obtain ⟨hi, -⟩ := List.getElem?_eq_some_iff.1 hr
  exact (List.getElem?_inj hi roles_distinct.1).1 (hr.trans hr'.symm)

example : linkRoles[3]? = some "recording".toList ∧ linkRoles[4]? = some "cleanup".toList ∧
    threadName "recording".toList 99999 = "recording-99999".toList := by decide +kernel

theorem namePost_eq (link : Int) (k : Nat) (ths : List (Option (List Char))) :
    namePost link (k + 1) ths = ths.dropLast ++ [some (threadName (postRole k) link)] := by
  induction k with
  | zero => rfl
  | succ k ih =>
    show (namePost link (k + 1) ths).dropLast ++ _ = _
    rw [ih]
    simp

/-- `m` times `conf`, each adding one task. -/
def confs (link : Int) : Nat → List (Option (List Char))
  | 0 => []
  | m + 1 => confPost link 1 (confs link m)

/-- **C110 (post-processing, partial)** If every configuration adds one task (as the WIB processor with hit finding does),
the i-th post-processing thread is named after i and the link. Missing: several tasks added by one configuration
(`C110_unnamed_counterexample`). -/
theorem C110_post_threads_partial (link : Int) (m : Nat) :
    confs link m = (List.range m).map (fun i => some (threadName (postRole i) link)) := by
  induction m with
  | zero => rfl
  | succ m ih =>
    unfold confs confPost
    rw [ih]
    simp only [List.length_append, List.length_map, List.length_range, List.length_replicate, List.range_succ,
      List.map_append, List.map_cons, List.map_nil]
    rw [namePost_eq]
    simp [List.replicate]

example : confs 7 2 = [some "postprocess-0-7".toList, some "postprocess-1-7".toList] := by decide +kernel

/-- **C110 (post-processing, distinct, partial)** With fewer than ten post-processing threads per link and link numbers
below ten their names differ. Missing: all other link numbers (`C110_truncated_counterexample`). -/
theorem C110_post_distinct_partial (i j a b : Nat) (hi : i < 10) (hj : j < 10) (ha : a < 10) (hb : b < 10)
    (h : threadName (postRole i) a = threadName (postRole j) b) : i = j ∧ a = b := by
  have e : ∀ n, n < 10 → dec (n : Nat) = [digit n] := by
    intro n hn
    show decF (n + 1) n = _
    simp [decF, hn]
  have hlen : ∀ i a, i < 10 → a < 10 → (fullName (postRole i) (a : Nat)).length ≤ 15 := by
    intro i a hi ha
    unfold fullName postRole
    rw [e i hi, e a ha]
    simp only [List.length_append, List.length_cons, List.length_nil]
    have : "postprocess-".toList.length = 12 := rfl
    omega
  have hlast : ∀ i, i < 10 → (postRole i).getLast? ≠ some '-' := by
    intro i hi
    unfold postRole
    rw [e i hi, List.getLast?_append]
    simp only [List.getLast?_singleton, Option.some_or, ne_eq, Option.some.injEq]
    exact decF_digits (i + 1) i _ (by simp [decF, hi])
  obtain ⟨h1, h2⟩ := C110_names_distinct_partial _ _ a b (hlast i hi) (hlast j hj) (hlen i a hi ha) (hlen j b hj hb) h
  refine ⟨?_, by exact_mod_cast h2⟩
  unfold postRole at h1
  have h3 := List.append_cancel_left h1
  rw [e i hi, e j hj] at h3
  have h4 : (digit i).toNat = (digit j).toNat := by rw [List.cons.inj h3 |>.1]
  rw [digit_toNat hi, digit_toNat hj] at h4
  omega

/-- **C110 is false of the code** for link numbers with two digits: the names of the post-processing threads of links 1 and 10
are cut to the same fifteen characters. -/
theorem C110_truncated_counterexample :
    threadName (postRole 0) 10 = threadName (postRole 0) 1 ∧ threadName (postRole 0) 10 = "postprocess-0-1".toList ∧
    fullName (postRole 0) 10 = "postprocess-0-10".toList := by decide +kernel

/-- **C110 is false of the code** if one configuration adds two tasks: only the last thread is named. -/
theorem C110_unnamed_counterexample : confPost 3 2 [] = [none, some "postprocess-1-3".toList] := by decide +kernel

/-! ### The script -/

theorem contains_iff (pat : List Char) : ∀ s, contains pat s = true ↔ pat <:+: s
  | [] => by
    simp only [contains, List.isPrefixOf_iff_prefix, List.infix_nil, List.prefix_nil]
  | c :: s => by
    simp only [contains, Bool.or_eq_true, List.isPrefixOf_iff_prefix, contains_iff pat s]
    exact List.infix_cons_iff.symm

theorem appName_spec (app : List Char) : ∀ (pre rest : List (List Char)), "--name".toList ∉ pre →
    appName (pre ++ "--name".toList :: app :: rest) = some app
  | [], rest, _ => by simp [appName]
  | a :: pre, rest, h => by
    have h1 : a ≠ "--name".toList := fun e => h (by rw [e]; exact List.mem_cons_self)
    have h2 : "--name".toList ∉ pre := fun e => h (List.mem_cons_of_mem _ e)
    show (if a = "--name".toList then _ else _) = _
    rw [if_neg h1]
    exact appName_spec app pre rest h2

theorem pinThreads_spec (n : Nat) (pin : PinFile) (p : Proc) : ∀ ts : List Thread, (pinThreads n pin p ts).2 = true →
    ∀ (j : Nat) (t : Thread), ts[j]? = some t →
      ∃ t', (pinThreads n pin p ts).1[j]? = some t' ∧ setCpus n (wanted pin p t) t = some t'
  | [], _, j, t, h => by simp at h
  | a :: ts, hok, j, t, h => by
    unfold pinThreads at hok ⊢
    cases ha : setCpus n (wanted pin p a) a with
    | none => rw [ha] at hok; cases hok
    | some a' =>
      rw [ha] at hok
      cases j with
      | zero =>
        simp only [List.getElem?_cons_zero, Option.some.injEq] at h
        subst h
        exact ⟨a', rfl, ha⟩
      | succ j =>
        simp only [List.getElem?_cons_succ] at h
        exact pinThreads_spec n pin p ts hok j t h

theorem balance_spec (n : Nat) (pin : PinFile) (target : List Char) : ∀ ps : List Proc, (balance n pin target ps).2 = true →
    ∀ (i : Nat) (p : Proc), ps[i]? = some p →
      (contains target p.name = false ∧ (balance n pin target ps).1[i]? = some p) ∨
      (contains target p.name = true ∧ (pinThreads n pin p p.threads).2 = true ∧
        (balance n pin target ps).1[i]? = some { p with threads := (pinThreads n pin p p.threads).1 })
  | [], _, i, p, h => by simp at h
  | a :: ps, hok, i, p, h => by
    cases hc : contains target a.name with
    | true =>
      cases ht : (pinThreads n pin a a.threads).2 with
      | false => simp [balance, hc, ht] at hok
      | true =>
        have hok' : (balance n pin target ps).2 = true := by simpa [balance, hc, ht] using hok
        cases i with
        | zero =>
          simp only [List.getElem?_cons_zero, Option.some.injEq] at h
          subst h
          exact Or.inr ⟨hc, ht, by simp [balance, hc, ht]⟩
        | succ i =>
          simp only [List.getElem?_cons_succ] at h
          simpa [balance, hc, ht] using balance_spec n pin target ps hok' i p h
    | false =>
      have hok' : (balance n pin target ps).2 = true := by simpa [balance, hc] using hok
      cases i with
      | zero =>
        simp only [List.getElem?_cons_zero, Option.some.injEq] at h
        subst h
        exact Or.inl ⟨hc, by simp [balance, hc]⟩
      | succ i =>
        simp only [List.getElem?_cons_succ] at h
        simpa [balance, hc] using balance_spec n pin target ps hok' i p h

/-- **C110 (pinning)** If the script runs to its end, every thread listed in the pin file under the name of its application,
in a process whose name contains the given one, has exactly the CPUs listed. -/
theorem C110_pinned (n : Nat) (pin : PinFile) (target : List Char) (ps : List Proc)
    (hok : (balance n pin target ps).2 = true) (i : Nat) (p : Proc) (hp : ps[i]? = some p) (ht : target <:+: p.name)
    (pre rest : List (List Char)) (app : List Char) (hcmd : p.cmdline = pre ++ "--name".toList :: app :: rest)
    (hpre : "--name".toList ∉ pre) (m : List Char → Option (List Nat)) (hpin : pin app = some m) (j : Nat) (t : Thread)
    (hj : p.threads[j]? = some t) (cpus : List Nat) (hm : m t.name = some cpus) (hne : cpus ≠ []) :
    ∃ p', (balance n pin target ps).1[i]? = some p' ∧ p'.threads[j]? = some ⟨t.name, cpus⟩ := by
  rcases balance_spec n pin target ps hok i p hp with ⟨h1, -⟩ | ⟨-, h2, h3⟩
  · rw [(contains_iff target p.name).2 ht] at h1; cases h1
  · refine ⟨_, h3, ?_⟩
    obtain ⟨t', h4, h5⟩ := pinThreads_spec n pin p p.threads h2 j t hj
    have hw : wanted pin p t = cpus := by
      unfold wanted
      rw [hcmd, appName_spec app pre rest hpre]
      simp [hpin, hm]
    rw [hw] at h5
    show (pinThreads n pin p p.threads).1[j]? = _
    rw [h4]
    unfold setCpus at h5
    rw [if_neg hne] at h5
    split at h5
    · rw [← Option.some.inj h5]
    · cases h5

/-- **C110 (other processes)** Processes whose name does not contain the given one are left alone, even if the script is
ended by an error. -/
theorem C110_others_untouched (n : Nat) (pin : PinFile) (target : List Char) : ∀ (ps : List Proc) (i : Nat) (p : Proc),
    ps[i]? = some p → ¬ target <:+: p.name → (balance n pin target ps).1[i]? = some p
  | [], i, p, hp, _ => by simp at hp
  | a :: ps, i, p, hp, ht => by
    cases i with
    | zero =>
      simp only [List.getElem?_cons_zero, Option.some.injEq] at hp
      subst hp
      have : contains target a.name = false := by
        rw [← Bool.not_eq_true]
        exact fun h => ht ((contains_iff _ _).1 h)
      simp [balance, this]
    | succ i =>
      simp only [List.getElem?_cons_succ] at hp
      have ih := C110_others_untouched n pin target ps i p hp ht
      unfold balance
      dsimp only
      split
      · split
        · simpa using ih
        · simpa using hp
      · simpa using ih

/-- A pin file with one application and one thread. -/
def pin0 : PinFile := fun a => if a = "ru0".toList then some (fun t => if t = "consumer-1".toList then some [2, 3] else none) else none

def ru : Proc := ⟨"daq_application".toList, ["daq_application".toList, "--name".toList, "ru0".toList],
  [⟨"daq_application".toList, [0, 1]⟩, ⟨"consumer-1".toList, [0, 1, 2, 3]⟩]⟩

/-- The hypotheses of `C110_pinned` are met; the thread is pinned. -/
example : (balance 4 pin0 "daq_application".toList [ru]).2 = true ∧ "daq_application".toList <:+: ru.name ∧
    ru.cmdline = ["daq_application".toList] ++ "--name".toList :: "ru0".toList :: [] ∧
    "--name".toList ∉ ["daq_application".toList] ∧ ru.threads[1]? = some ⟨"consumer-1".toList, [0, 1, 2, 3]⟩ :=
  ⟨by decide +kernel, List.infix_rfl, rfl, by decide +kernel, rfl⟩

/-- **C110 is false of the code** for threads that the pin file does not list: the CPU set they had, here of the main thread,
is replaced by all CPUs. -/
theorem C110_unlisted_counterexample :
    (balance 4 pin0 "daq_application".toList [ru]).1 =
      [{ ru with threads := [⟨"daq_application".toList, [0, 1, 2, 3]⟩, ⟨"consumer-1".toList, [2, 3]⟩] }] := by
  decide +kernel

/-- **C110 is false of the code** for other processes whose name contains the given one: all their threads are reset. -/
theorem C110_other_process_counterexample :
    (balance 4 pin0 "daq_application".toList [⟨"daq_application_test".toList, ["x".toList], [⟨"worker".toList, [1]⟩]⟩]).1 =
      [⟨"daq_application_test".toList, ["x".toList], [⟨"worker".toList, [0, 1, 2, 3]⟩]⟩] := by
  decide +kernel

/-- A pin file of which one entry names a CPU that does not exist on a machine with two. -/
def pin1 : PinFile := fun _ => some (fun t =>
  if t = "consumer-1".toList then some [2] else if t = "consumer-2".toList then some [1] else none)

/-- **C110 is false of the code** if the pin file names a CPU that does not exist: the script ends, and listed threads after
it are not pinned. -/
theorem C110_invalid_cpu_counterexample :
    balance 2 pin1 "daq_application".toList
        [{ ru with threads := [⟨"consumer-1".toList, [0]⟩, ⟨"consumer-2".toList, [0]⟩] }] =
      ([{ ru with threads := [⟨"consumer-1".toList, [0]⟩, ⟨"consumer-2".toList, [0]⟩] }], false) := by
  decide +kernel

end Verif.Pin
