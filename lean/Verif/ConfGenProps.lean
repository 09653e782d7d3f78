import Verif.ConfGenModel
import Verif.CardProps
import Std.Data.String.ToNat
namespace Verif.ConfGen
open Verif.Dispatch
variable (fe : Frontend) (n t : Nat)

theorem num_toList (p : String) (i : Nat) : (num p i).toList = p.toList ++ Nat.toDigits 10 i := by
  simp [num]

theorem toDigits_inj {i j : Nat} (h : Nat.toDigits 10 i = Nat.toDigits 10 j) : i = j := by
  apply Nat.repr_injective
  apply String.ext
  simpa using h

theorem num_inj {p : String} {i j : Nat} : num p i = num p j ↔ i = j := by
  constructor
  · intro h
    have := congrArg String.toList h
    rw [num_toList, num_toList] at this
    exact toDigits_inj (List.append_cancel_left this)
  · rintro rfl; rfl

theorem eq_iff_toList (a b : String) : a = b ↔ a.toList = b.toList :=
  ⟨fun h => by rw [h], fun h => String.ext h⟩

/-- A key that does not begin with a digit does not occur among digits. -/
theorem has_digits (c : Char) (k : List Char) (hc : c.isDigit = false) :
    ∀ ds : List Char, (∀ d ∈ ds, d.isDigit = true) → has (c :: k) ds = false := by
  intro ds
  induction ds with
  | nil => intro _; simp [has]
  | cons d ds ih =>
    intro h
    have hd := h d (by simp)
    have : c ≠ d := by rintro rfl; rw [hc] at hd; cases hd
    simp only [has, ih (fun x hx => h x (by simp [hx])), Bool.or_false]
    simp [List.isPrefixOf, this]

theorem digits_all (i : Nat) : ∀ d ∈ Nat.toDigits 10 i, d.isDigit = true :=
  fun _ hd => Nat.isDigit_of_mem_toDigits (by omega) (by omega) hd

/-- The data type of a front-end. -/
def Frontend.ty : Frontend → DataType
  | .wib => .wib
  | .wib2 => .wib2
  | .pdsQueue => .daphne
  | .pdsList => .daphne

theorem hd (c : Char) (k : List Char) (i : Nat) (hc : c.isDigit = false) :
    has (c :: k) (Nat.toDigits 10 i) = false := has_digits c k hc _ (digits_all i)

theorem link_types (i : Nat) :
    (readoutOne (link fe i).toList).map (·.1) = some fe.ty ∧ emulator (link fe i).toList = some fe.ty := by
  cases fe <;>
  · simp only [link, num_toList, Frontend.str, readoutOne, emulator, String.toList_append]
    simp [has, List.isPrefixOf, Frontend.ty]
    try simp [hd]

theorem rawTp_types (i : Nat) :
    (readoutOne (num "raw_tp_link_" i).toList).map (·.1) = some .rawTp ∧
    emulator (num "raw_tp_link_" i).toList = some .rawTp := by
  simp only [num_toList, readoutOne, emulator]
  simp [has, List.isPrefixOf, hd]

theorem swTp_types (i : Nat) :
    (readoutOne (num "sw_tp_queue_" i).toList).map (·.1) = some .swTp := by
  simp only [num_toList, readoutOne, emulator]
  simp [has, List.isPrefixOf, hd]


theorem handlerType_raw (inst : String) (d : Dir) (cs : List Conn) (ty : DataType)
    (h : (readoutOne inst.toList).map (·.1) = some ty) : handlerType (⟨"raw_input", inst, d⟩ :: cs) = some ty := by
  cases hr : readoutOne inst.toList with
  | none => rw [hr] at h; cases h
  | some r =>
    rw [hr] at h
    simp only [handlerType, List.map_cons, createReadout, if_true, hr]
    exact h

theorem find_isSome (cs : List Conn) (s : String) : (find cs s).isSome = (cs.map (·.name)).contains s := by
  induction cs with
  | nil => rfl
  | cons c cs ih =>
    simp only [find, List.find?_cons, List.map_cons, List.contains_cons] at ih ⊢
    by_cases h : c.name = s
    · simp [h]
    · have h' : ¬ s = c.name := fun e => h e.symm
      simp only [beq_eq_false_iff_ne.2 h, beq_eq_false_iff_ne.2 h', Bool.false_or]
      exact ih

theorem numbered_names (cs : List Conn) (ns : List String) (h : cs.map (·.name) = ns) :
    numbered cs = ⟨(List.range (ns.length + 1)).filter (fun k => ns.contains (num "data_requests_" k)),
      (List.range (ns.length + 1)).filter (fun k => ns.contains (num "data_response_" k))⟩ := by
  subst h
  simp only [numbered, find_isSome, List.length_map]

theorem open_data (i : Nat) : openMod (dataHandler fe i) = .ok
    ([⟨"data_requests_0", num "data_requests_" i, .input⟩, ⟨"data_response_0", "data_fragments_q", .output⟩,
      ⟨"raw_input", link fe i, .input⟩, ⟨"timesync", "time_sync_q", .output⟩] ++
     if fe = .wib then [⟨"tp_out", num "sw_tp_queue_" i, .output⟩, ⟨"tpset_out", num "tpset_link_" i, .output⟩,
      ⟨"errored_frames", "errored_frames_q", .output⟩] else []) := by
  have hs : Route.setup (numbered (dataHandler fe i).conns) = .ok [0] := by
    rw [numbered_names (dataHandler fe i).conns ["raw_input", "timesync", "data_requests_0", "data_response_0",
      "tp_out", "tpset_out", "errored_frames"] rfl]
    have : (⟨(List.range 8).filter (fun k => ["raw_input", "timesync", "data_requests_0", "data_response_0",
        "tp_out", "tpset_out", "errored_frames"].contains (num "data_requests_" k)),
      (List.range 8).filter (fun k => ["raw_input", "timesync", "data_requests_0", "data_response_0",
        "tp_out", "tpset_out", "errored_frames"].contains (num "data_response_" k))⟩ : Route.Names) = ⟨[0], [0]⟩ := by
      decide +kernel
    simp only [List.length_cons, List.length_nil] at this ⊢
    rw [this]; rfl
  simp only [openMod, dataHandler, openHandler]
  rw [handlerType_raw _ _ _ _ (link_types fe i).1]
  simp only [dataHandler] at hs
  simp only [hs, Outcome.bind_ok]
  cases fe <;> rfl

theorem open_sw (i : Nat) : openMod (swTpHandler i) = .ok
    [⟨"raw_input", num "sw_tp_queue_" i, .input⟩, ⟨"timesync", "time_sync_q", .output⟩] := by
  have hs : Route.setup (numbered (swTpHandler i).conns) = .ok [] := by rfl
  simp only [openMod, swTpHandler, openHandler]
  rw [handlerType_raw _ _ _ _ (swTp_types i)]
  simp only [swTpHandler] at hs
  simp only [hs, Outcome.bind_ok]
  rfl

theorem open_raw (i : Nat) : openMod (rawTpHandler i) = .ok
    [⟨"raw_input", num "raw_tp_link_" i, .input⟩, ⟨"timesync", "time_sync_q", .output⟩] := by
  have hs : Route.setup (numbered (rawTpHandler i).conns) = .ok [] := by rfl
  simp only [openMod, rawTpHandler, openHandler]
  rw [handlerType_raw _ _ _ _ (rawTp_types i).1]
  simp only [rawTpHandler] at hs
  simp only [hs, Outcome.bind_ok]
  rfl

theorem mem_tpRange {i : Nat} : i ∈ tpRange n t ↔ n ≤ i ∧ i < n + t := by
  simp only [tpRange, List.mem_map, List.mem_range]
  constructor
  · rintro ⟨a, h, rfl⟩; omega
  · intro h; exact ⟨i - n, by omega, by omega⟩

theorem nodup_tpRange : (tpRange n t).Nodup := by
  simp only [tpRange, List.nodup_iff_pairwise_ne, List.pairwise_map]
  exact List.Pairwise.imp (fun h => by omega) (List.pairwise_lt_range (n := t))

theorem source_names : (source fe n t).conns.map (·.name) = ((List.range n) ++ tpRange n t).map (num "output_") := by
  simp [source, Function.comp_def]

theorem ranges_nodup : (List.range n ++ tpRange n t).Nodup := by
  rw [List.nodup_append]
  refine ⟨List.nodup_range, nodup_tpRange n t, fun a ha b hb => ?_⟩
  rw [mem_tpRange] at hb; rw [List.mem_range] at ha; omega

theorem nodup_num (p : String) {l : List Nat} (h : l.Nodup) : (l.map (num p)).Nodup := by
  rw [List.nodup_iff_pairwise_ne, List.pairwise_map]
  exact List.Pairwise.imp (fun hab he => hab (num_inj.1 he)) h

theorem source_init : (Card.init ((source fe n t).conns.map (fun c => (c.name, c.inst)))).isSome := by
  unfold Card.init
  rw [if_pos]
  · rfl
  · constructor
    · have : ((source fe n t).conns.map (fun c => (c.name, c.inst))).map (·.1) = (source fe n t).conns.map (·.name) := by
        simp
      rw [this, source_names]
      exact nodup_num _ (ranges_nodup n t)
    · intro q hq
      simp only [source, List.map_append, List.map_map, List.mem_append, List.mem_map, Function.comp_apply] at hq
      rcases hq with ⟨i, _, rfl⟩ | ⟨i, _, rfl⟩
      · simp [(link_types fe i).2]
      · simp [(rawTp_types i).2]

theorem open_source : openMod (source fe n t) = .ok (source fe n t).conns := by
  have hf : (source fe n t).conns.filter (fun c => decide (c.dir = .output)) = (source fe n t).conns := by
    rw [List.filter_eq_self]
    intro c hc
    simp only [source, List.mem_append, List.mem_map] at hc
    rcases hc with ⟨i, _, rfl⟩ | ⟨i, _, rfl⟩ <;> rfl
  have hi := source_init fe n t
  have hp : (source fe n t).plugin = .card := rfl
  simp only [openMod, hp, hf]
  cases h : Card.init ((source fe n t).conns.map (fun c => (c.name, c.inst))) with
  | none => rw [h] at hi; cases hi
  | some c => rfl

/-- Specification: the queues by purpose, with the names they are given. -/
inductive Q
  | ts | fr | er | req (i : Nat) | lk (i : Nat) | raw (i : Nat) | sw (i : Nat) | tpReq | tps (i : Nat)

/-- Their names. -/
def Q.str (fe : Frontend) : Q → String
  | .ts => "time_sync_q"
  | .fr => "data_fragments_q"
  | .er => "errored_frames_q"
  | .req i => num "data_requests_" i
  | .lk i => link fe i
  | .raw i => num "raw_tp_link_" i
  | .sw i => num "sw_tp_queue_" i
  | .tpReq => "tp_data_requests"
  | .tps i => num "tpset_link_" i

theorem Q.inj {a b : Q} (h : a.str fe = b.str fe) : a = b := by
  cases a <;> cases b <;> first
    | rfl
    | (simp only [Q.str, link, num_inj] at h; subst h; rfl)
    | (exfalso
       rw [eq_iff_toList] at h
       cases fe <;>
         simp [Q.str, link, num_toList, Frontend.str] at h)

/-- Which end of a queue a module has open. -/
def Opens (m : Mod) (c : Conn) : Prop := m ∈ modules fe n t ∧ ∃ cs, openMod m = .ok cs ∧ c ∈ cs

/-- Specification: whether the queue of that purpose is meant for one writer and one reader. -/
def Q.spsc : Q → Bool
  | .ts | .fr | .er => false
  | _ => true

/-- Specification: whether there is such a queue. -/
def Q.Declared (n t : Nat) : Q → Prop
  | .ts | .fr | .er | .tpReq => True
  | .req i | .lk i | .sw i | .tps i => i < n
  | .raw i => n ≤ i ∧ i < n + t

/-- Specification: what the queue carries. -/
def Q.pay (fe : Frontend) : Q → Payload
  | .ts => .timeSync
  | .fr => .fragment
  | .er => .wibFrame
  | .req _ => .request
  | .lk _ => .data fe.ty
  | .raw _ => .data .rawTp
  | .sw _ => .data .swTp
  | .tpReq => .request
  | .tps _ => .tpSet

/-- Specification: who reads the queue, through which connection. -/
def Q.reader (fe : Frontend) : Q → Mod × Conn
  | .ts => (timeSyncConsumer, ⟨"input_queue", "time_sync_q", .input⟩)
  | .fr => (fragmentConsumer, ⟨"input_queue", "data_fragments_q", .input⟩)
  | .er => (erroredConsumer, ⟨"input_queue", "errored_frames_q", .input⟩)
  | .req i => (dataHandler fe i, ⟨"data_requests_0", num "data_requests_" i, .input⟩)
  | .lk i => (dataHandler fe i, ⟨"raw_input", link fe i, .input⟩)
  | .raw i => (rawTpHandler i, ⟨"raw_input", num "raw_tp_link_" i, .input⟩)
  | .sw i => (swTpHandler i, ⟨"raw_input", num "sw_tp_queue_" i, .input⟩)
  | .tpReq => (swTpHandler 0, ⟨"requests", "tp_data_requests", .input⟩)
  | .tps i => (publisher i, ⟨"input", num "tpset_link_" i, .input⟩)

/-- Specification: who writes a queue that is meant for one writer. -/
def Q.writer (fe : Frontend) (n t : Nat) : Q → Mod × Conn
  | .lk i => (source fe n t, ⟨num "output_" i, link fe i, .output⟩)
  | .raw i => (source fe n t, ⟨num "output_" i, num "raw_tp_link_" i, .output⟩)
  | .sw i => (dataHandler fe i, ⟨"tp_out", num "sw_tp_queue_" i, .output⟩)
  | .tps i => (dataHandler fe i, ⟨"tpset_out", num "tpset_link_" i, .output⟩)
  | _ => (source fe n t, ⟨"", "", .output⟩)

theorem mem_modules {m : Mod} : m ∈ modules fe n t ↔
    m = source fe n t ∨ (∃ i < n, m = dataHandler fe i) ∨ m = timeSyncConsumer ∨ m = fragmentConsumer ∨
    (∃ i < n, m = swTpHandler i) ∨ (∃ i < n, m = publisher i) ∨
    (∃ i, (n ≤ i ∧ i < n + t) ∧ m = rawTpHandler i) ∨ m = erroredConsumer := by
  simp only [modules, List.mem_append, List.mem_map, List.mem_singleton, List.mem_range, mem_tpRange]
  constructor
  · rintro (((((((h | ⟨i, h, rfl⟩) | h) | h) | ⟨i, h, rfl⟩) | ⟨i, h, rfl⟩) | ⟨i, h, rfl⟩) | h)
    · exact Or.inl h
    · exact Or.inr (Or.inl ⟨i, h, rfl⟩)
    · exact Or.inr (Or.inr (Or.inl h))
    · exact Or.inr (Or.inr (Or.inr (Or.inl h)))
    · exact Or.inr (Or.inr (Or.inr (Or.inr (Or.inl ⟨i, h, rfl⟩))))
    · exact Or.inr (Or.inr (Or.inr (Or.inr (Or.inr (Or.inl ⟨i, h, rfl⟩)))))
    · exact Or.inr (Or.inr (Or.inr (Or.inr (Or.inr (Or.inr (Or.inl ⟨i, h, rfl⟩))))))
    · exact Or.inr (Or.inr (Or.inr (Or.inr (Or.inr (Or.inr (Or.inr h))))))
  · rintro (h | ⟨i, h, rfl⟩ | h | h | ⟨i, h, rfl⟩ | ⟨i, h, rfl⟩ | ⟨i, h, rfl⟩ | h)
    · simp [h]
    · exact Or.inl (Or.inl (Or.inl (Or.inl (Or.inl (Or.inl (Or.inr ⟨i, h, rfl⟩))))))
    · simp [h]
    · simp [h]
    · exact Or.inl (Or.inl (Or.inl (Or.inr ⟨i, h, rfl⟩)))
    · exact Or.inl (Or.inl (Or.inr ⟨i, h, rfl⟩))
    · exact Or.inl (Or.inr ⟨i, h, rfl⟩)
    · simp [h]

theorem mem_queues {q : QueueSpec} : q ∈ queues fe n t ↔
    ∃ p : Q, p.Declared n t ∧ q.inst = p.str fe ∧ q.spsc = p.spsc ∧ q ∈ queues fe n t := by
  constructor
  · intro h
    have h' := h
    simp only [queues, List.mem_append, List.mem_map, List.mem_cons, List.not_mem_nil, or_false, List.mem_range,
      mem_tpRange] at h'
    rcases h' with ((((((h' | h' | h') | ⟨i, hi, h'⟩) | ⟨i, hi, h'⟩) | ⟨i, hi, h'⟩) | ⟨i, hi, h'⟩) | h') | ⟨i, hi, h'⟩
    · exact ⟨.ts, trivial, by rw [h']; rfl, by rw [h']; rfl, h⟩
    · exact ⟨.fr, trivial, by rw [h']; rfl, by rw [h']; rfl, h⟩
    · exact ⟨.er, trivial, by rw [h']; rfl, by rw [h']; rfl, h⟩
    · exact ⟨.req i, hi, by rw [← h']; rfl, by rw [← h']; rfl, h⟩
    · exact ⟨.lk i, hi, by rw [← h']; rfl, by rw [← h']; rfl, h⟩
    · exact ⟨.raw i, hi, by rw [← h']; rfl, by rw [← h']; rfl, h⟩
    · exact ⟨.sw i, hi, by rw [← h']; rfl, by rw [← h']; rfl, h⟩
    · exact ⟨.tpReq, trivial, by rw [h']; rfl, by rw [h']; rfl, h⟩
    · exact ⟨.tps i, hi, by rw [← h']; rfl, by rw [← h']; rfl, h⟩
  · rintro ⟨_, _, _, _, h⟩; exact h

theorem declared {p : Q} (h : p.Declared n t) : ∃ q ∈ queues fe n t, q.inst = p.str fe ∧ q.spsc = p.spsc := by
  simp only [queues, List.mem_append, List.mem_map, List.mem_cons, List.not_mem_nil, or_false, List.mem_range,
      mem_tpRange]
  cases p with
  | ts => exact ⟨⟨"time_sync_q", false, 100⟩, by simp, rfl, rfl⟩
  | fr => exact ⟨⟨"data_fragments_q", false, 100⟩, by simp, rfl, rfl⟩
  | er => exact ⟨⟨"errored_frames_q", false, 10000⟩, by simp, rfl, rfl⟩
  | tpReq => exact ⟨⟨"tp_data_requests", true, 1000⟩, by simp, rfl, rfl⟩
  | req i => exact ⟨_, Or.inl (Or.inl (Or.inl (Or.inl (Or.inl (Or.inr ⟨i, h, rfl⟩))))), rfl, rfl⟩
  | lk i => exact ⟨_, Or.inl (Or.inl (Or.inl (Or.inl (Or.inr ⟨i, h, rfl⟩)))), rfl, rfl⟩
  | raw i => exact ⟨_, Or.inl (Or.inl (Or.inl (Or.inr ⟨i, h, rfl⟩))), rfl, rfl⟩
  | sw i => exact ⟨_, Or.inl (Or.inl (Or.inr ⟨i, h, rfl⟩)), rfl, rfl⟩
  | tps i => exact ⟨_, Or.inr ⟨i, h, rfl⟩, rfl, rfl⟩

theorem reader_opens {q : Q} (h : q.Declared n t) (hq : q ≠ .tpReq) :
    Opens fe n t (q.reader fe).1 (q.reader fe).2 := by
  cases q with
  | ts => exact ⟨(mem_modules fe n t).2 (by simp [Q.reader]), _, rfl, by simp [Q.reader]⟩
  | fr => exact ⟨(mem_modules fe n t).2 (by simp [Q.reader]), _, rfl, by simp [Q.reader]⟩
  | er => exact ⟨(mem_modules fe n t).2 (by simp [Q.reader]), _, rfl, by simp [Q.reader]⟩
  | tpReq => exact absurd rfl hq
  | req i => exact ⟨(mem_modules fe n t).2 (Or.inr (Or.inl ⟨i, h, rfl⟩)), _, open_data fe i, by simp [Q.reader]⟩
  | lk i => exact ⟨(mem_modules fe n t).2 (Or.inr (Or.inl ⟨i, h, rfl⟩)), _, open_data fe i, by simp [Q.reader]⟩
  | raw i =>
    exact ⟨(mem_modules fe n t).2 (Or.inr (Or.inr (Or.inr (Or.inr (Or.inr (Or.inr (Or.inl ⟨i, h, rfl⟩))))))),
      _, open_raw i, by simp [Q.reader]⟩
  | sw i =>
    exact ⟨(mem_modules fe n t).2 (Or.inr (Or.inr (Or.inr (Or.inr (Or.inl ⟨i, h, rfl⟩))))),
      _, open_sw i, by simp [Q.reader]⟩
  | tps i =>
    exact ⟨(mem_modules fe n t).2 (Or.inr (Or.inr (Or.inr (Or.inr (Or.inr (Or.inl ⟨i, h, rfl⟩)))))),
      _, rfl, by simp [Q.reader]⟩

theorem opens_spec {m : Mod} {c : Conn} (h : Opens fe n t m c) :
    ∃ q : Q, q.Declared n t ∧ q ≠ .tpReq ∧ c.inst = q.str fe ∧ payload m c = some (q.pay fe) ∧
      (c.dir = .input → (m, c) = q.reader fe) ∧ (c.dir = .output → q.spsc = true → (m, c) = q.writer fe n t) := by
  obtain ⟨hm, cs, ho, hc⟩ := h
  rcases (mem_modules fe n t).1 hm with rfl | ⟨i, hi, rfl⟩ | rfl | rfl | ⟨i, hi, rfl⟩ | ⟨i, hi, rfl⟩ | ⟨i, hi, rfl⟩ | rfl
  · rw [open_source] at ho
    injection ho with ho; subst ho
    simp only [source, List.mem_append, List.mem_map, List.mem_range, mem_tpRange] at hc
    rcases hc with ⟨i, hi, rfl⟩ | ⟨i, hi, rfl⟩
    · refine ⟨.lk i, hi, by simp, rfl, ?_, by simp, fun _ _ => rfl⟩
      simp [payload, source, (link_types fe i).2, Q.pay]
    · refine ⟨.raw i, hi, by simp, rfl, ?_, by simp, fun _ _ => rfl⟩
      simp [payload, source, (rawTp_types i).2, Q.pay]
  · rw [open_data] at ho
    injection ho with ho; subst ho
    have hty : handlerType (dataHandler fe i).conns = some fe.ty := handlerType_raw _ _ _ _ (link_types fe i).1
    rw [List.mem_append] at hc
    rcases hc with hc | hc
    · simp only [List.mem_cons, List.not_mem_nil, or_false] at hc
      rcases hc with rfl | rfl | rfl | rfl
      · exact ⟨.req i, hi, by simp, rfl, by simp [payload, dataHandler, List.isPrefixOf, Q.pay], fun _ => rfl, by simp⟩
      · exact ⟨.fr, trivial, by simp, rfl, by simp [payload, dataHandler, List.isPrefixOf, Q.pay], by simp, by simp [Q.spsc]⟩
      · refine ⟨.lk i, hi, by simp, rfl, ?_, fun _ => rfl, by simp⟩
        simp only [dataHandler] at hty
        simp [payload, dataHandler, hty, Q.pay]
      · exact ⟨.ts, trivial, by simp, rfl, rfl, by simp, by simp [Q.spsc]⟩
    · by_cases hfe : fe = .wib
      · rw [if_pos hfe] at hc
        simp only [List.mem_cons, List.not_mem_nil, or_false] at hc
        rcases hc with rfl | rfl | rfl
        · exact ⟨.sw i, hi, by simp, rfl, rfl, by simp, fun _ _ => rfl⟩
        · exact ⟨.tps i, hi, by simp, rfl, rfl, by simp, fun _ _ => rfl⟩
        · exact ⟨.er, trivial, by simp, rfl, rfl, by simp, by simp [Q.spsc]⟩
      · rw [if_neg hfe] at hc; cases hc
  · have ho' : openMod timeSyncConsumer = .ok [⟨"input_queue", "time_sync_q", .input⟩] := rfl
    rw [ho'] at ho; injection ho with ho; subst ho
    rw [List.mem_singleton] at hc; subst hc
    exact ⟨.ts, trivial, by simp, rfl, rfl, fun _ => rfl, by simp⟩
  · have ho' : openMod fragmentConsumer = .ok [⟨"input_queue", "data_fragments_q", .input⟩] := rfl
    rw [ho'] at ho; injection ho with ho; subst ho
    rw [List.mem_singleton] at hc; subst hc
    exact ⟨.fr, trivial, by simp, rfl, rfl, fun _ => rfl, by simp⟩
  · rw [open_sw] at ho
    injection ho with ho; subst ho
    have hty : handlerType (swTpHandler i).conns = some .swTp := handlerType_raw _ _ _ _ (swTp_types i)
    simp only [List.mem_cons, List.not_mem_nil, or_false] at hc
    rcases hc with rfl | rfl
    · refine ⟨.sw i, hi, by simp, rfl, ?_, fun _ => rfl, by simp⟩
      simp only [swTpHandler] at hty
      simp [payload, swTpHandler, hty, Q.pay]
    · exact ⟨.ts, trivial, by simp, rfl, rfl, by simp, by simp [Q.spsc]⟩
  · have ho' : openMod (publisher i) = .ok [⟨"input", num "tpset_link_" i, .input⟩] := rfl
    rw [ho'] at ho; injection ho with ho; subst ho
    rw [List.mem_singleton] at hc; subst hc
    exact ⟨.tps i, hi, by simp, rfl, rfl, fun _ => rfl, by simp⟩
  · rw [open_raw] at ho
    injection ho with ho; subst ho
    have hty : handlerType (rawTpHandler i).conns = some .rawTp := handlerType_raw _ _ _ _ (rawTp_types i).1
    simp only [List.mem_cons, List.not_mem_nil, or_false] at hc
    rcases hc with rfl | rfl
    · refine ⟨.raw i, hi, by simp, rfl, ?_, fun _ => rfl, by simp⟩
      simp only [rawTpHandler] at hty
      simp [payload, rawTpHandler, hty, Q.pay]
    · exact ⟨.ts, trivial, by simp, rfl, rfl, by simp, by simp [Q.spsc]⟩
  · have ho' : openMod erroredConsumer = .ok [⟨"input_queue", "errored_frames_q", .input⟩] := rfl
    rw [ho'] at ho; injection ho with ho; subst ho
    rw [List.mem_singleton] at hc; subst hc
    exact ⟨.er, trivial, by simp, rfl, rfl, fun _ => rfl, by simp⟩

theorem open_ok {m : Mod} (h : m ∈ modules fe n t) : (openMod m).IsOk := by
  rcases (mem_modules fe n t).1 h with rfl | ⟨i, hi, rfl⟩ | rfl | rfl | ⟨i, hi, rfl⟩ | ⟨i, hi, rfl⟩ | ⟨i, hi, rfl⟩ | rfl
  · exact ⟨_, open_source fe n t⟩
  · exact ⟨_, open_data fe i⟩
  · exact ⟨_, rfl⟩
  · exact ⟨_, rfl⟩
  · exact ⟨_, open_sw i⟩
  · exact ⟨_, rfl⟩
  · exact ⟨_, open_raw i⟩
  · exact ⟨_, rfl⟩

/-- The modules by purpose. -/
inductive N
  | src | data (i : Nat) | tsc | frc | sw (i : Nat) | pub (i : Nat) | raw (i : Nat) | erc

/-- Their names. -/
def N.str : N → String
  | .src => "fake_source"
  | .data i => num "datahandler_" i
  | .tsc => "timesync_consumer"
  | .frc => "fragment_consumer"
  | .sw i => num "sw_tp_handler_" i
  | .pub i => num "tpset_publisher_" i
  | .raw i => num "raw_tp_handler_" i
  | .erc => "errored_frame_consumer"

theorem N.inj {a b : N} (h : a.str = b.str) : a = b := by
  cases a <;> cases b <;> first
    | rfl
    | (simp only [N.str, num_inj] at h; subst h; rfl)
    | (exfalso
       rw [eq_iff_toList] at h
       simp [N.str, num_toList] at h)

theorem nodup_map_inj {α β : Type} (f : α → β) (hf : ∀ a b, f a = f b → a = b) {l : List α} (h : l.Nodup) :
    (l.map f).Nodup := by
  rw [List.nodup_iff_pairwise_ne, List.pairwise_map]
  exact List.Pairwise.imp (fun hab he => hab (hf _ _ he)) h

theorem queue_names : (queues fe n t).map (·.inst) =
    ([Q.ts, .fr, .er] ++ (List.range n).map Q.req ++ (List.range n).map Q.lk ++ (tpRange n t).map Q.raw ++
      (List.range n).map Q.sw ++ [Q.tpReq] ++ (List.range n).map Q.tps).map (Q.str fe) := by
  simp [queues, Function.comp_def, Q.str]

theorem module_names : (modules fe n t).map (·.name) =
    ([N.src] ++ (List.range n).map N.data ++ [N.tsc] ++ [N.frc] ++ (List.range n).map N.sw ++
      (List.range n).map N.pub ++ (tpRange n t).map N.raw ++ [N.erc]).map N.str := by
  simp [modules, Function.comp_def, N.str, source, dataHandler, timeSyncConsumer, fragmentConsumer, swTpHandler,
    publisher, rawTpHandler, erroredConsumer]

theorem queues_nodup : ((queues fe n t).map (·.inst)).Nodup := by
  rw [queue_names]
  refine nodup_map_inj _ (fun a b h => Q.inj fe h) ?_
  have hr : (List.range n).Nodup := List.nodup_range
  have ht := nodup_tpRange n t
  simp only [List.nodup_append, List.mem_append, List.mem_map, List.mem_cons, List.not_mem_nil, or_false]
  refine ⟨⟨⟨⟨⟨⟨by simp, nodup_map_inj _ (by simp) hr, ?_⟩, nodup_map_inj _ (by simp) hr, ?_⟩,
    nodup_map_inj _ (by simp) ht, ?_⟩, nodup_map_inj _ (by simp) hr, ?_⟩, by simp, ?_⟩,
    nodup_map_inj _ (by simp) hr, ?_⟩ <;>
  · intro a ha b hb hab
    subst hab
    revert ha hb
    cases a <;> simp

theorem modules_nodup : ((modules fe n t).map (·.name)).Nodup := by
  rw [module_names]
  refine nodup_map_inj _ (fun a b h => N.inj h) ?_
  have hr : (List.range n).Nodup := List.nodup_range
  have ht := nodup_tpRange n t
  simp only [List.nodup_append, List.mem_append, List.mem_map, List.mem_singleton]
  refine ⟨⟨⟨⟨⟨⟨⟨by simp, nodup_map_inj _ (by simp) hr, ?_⟩, by simp, ?_⟩, by simp, ?_⟩,
    nodup_map_inj _ (by simp) hr, ?_⟩, nodup_map_inj _ (by simp) hr, ?_⟩, nodup_map_inj _ (by simp) ht, ?_⟩,
    by simp, ?_⟩ <;>
  · intro a ha b hb hab
    subst hab
    revert ha hb
    cases a <;> simp

theorem conns_declared {m : Mod} (hm : m ∈ modules fe n t) {c : Conn} (hc : c ∈ m.conns) :
    ∃ q ∈ queues fe n t, q.inst = c.inst := by
  have key : ∃ p : Q, p.Declared n t ∧ c.inst = p.str fe := by
    rcases (mem_modules fe n t).1 hm with rfl | ⟨i, hi, rfl⟩ | rfl | rfl | ⟨i, hi, rfl⟩ | ⟨i, hi, rfl⟩ | ⟨i, hi, rfl⟩ | rfl
    · simp only [source, List.mem_append, List.mem_map, List.mem_range, mem_tpRange] at hc
      rcases hc with ⟨i, hi, rfl⟩ | ⟨i, hi, rfl⟩
      · exact ⟨.lk i, hi, rfl⟩
      · exact ⟨.raw i, hi, rfl⟩
    · simp only [dataHandler, List.mem_cons, List.not_mem_nil, or_false] at hc
      rcases hc with rfl | rfl | rfl | rfl | rfl | rfl | rfl
      · exact ⟨.lk i, hi, rfl⟩
      · exact ⟨.ts, trivial, rfl⟩
      · exact ⟨.req i, hi, rfl⟩
      · exact ⟨.fr, trivial, rfl⟩
      · exact ⟨.sw i, hi, rfl⟩
      · exact ⟨.tps i, hi, rfl⟩
      · exact ⟨.er, trivial, rfl⟩
    · simp only [timeSyncConsumer, List.mem_singleton] at hc
      subst hc; exact ⟨.ts, trivial, rfl⟩
    · simp only [fragmentConsumer, List.mem_singleton] at hc
      subst hc; exact ⟨.fr, trivial, rfl⟩
    · simp only [swTpHandler, List.mem_cons, List.not_mem_nil, or_false] at hc
      rcases hc with rfl | rfl | rfl | rfl
      · exact ⟨.sw i, hi, rfl⟩
      · exact ⟨.ts, trivial, rfl⟩
      · exact ⟨.tpReq, trivial, rfl⟩
      · exact ⟨.fr, trivial, rfl⟩
    · simp only [publisher, List.mem_singleton] at hc
      subst hc; exact ⟨.tps i, hi, rfl⟩
    · simp only [rawTpHandler, List.mem_cons, List.not_mem_nil, or_false] at hc
      rcases hc with rfl | rfl
      · exact ⟨.raw i, hi, rfl⟩
      · exact ⟨.ts, trivial, rfl⟩
    · simp only [erroredConsumer, List.mem_singleton] at hc
      subst hc; exact ⟨.er, trivial, rfl⟩
  obtain ⟨p, hp, he⟩ := key
  obtain ⟨q, hq, hqe, _⟩ := declared fe n t hp
  exact ⟨q, hq, by rw [hqe, he]⟩

/-- **C88 (partial)** For every front-end and every number of links the generated application is wired up
consistently: every module initialises; queue and module names are unique; every connection refers to a declared
queue; every queue has at most one open reader, every single-producer queue at most one open writer; whatever is
written is read by someone; and both ends of a queue are opened for the same type of data. Missing from "every
connection is used as the configuration says": the connections no module opens, see the counterexamples. -/
theorem C88_wiring_partial :
    (∀ m ∈ modules fe n t, (openMod m).IsOk) ∧
    ((queues fe n t).map (·.inst)).Nodup ∧ ((modules fe n t).map (·.name)).Nodup ∧
    (∀ m ∈ modules fe n t, ∀ c ∈ m.conns, ∃ q ∈ queues fe n t, q.inst = c.inst) ∧
    (∀ m c m' c', Opens fe n t m c → Opens fe n t m' c' → c.inst = c'.inst → c.dir = c'.dir →
      (c.dir = .input ∨ ∃ q ∈ queues fe n t, q.inst = c.inst ∧ q.spsc = true) → m = m' ∧ c = c') ∧
    (∀ m c, Opens fe n t m c → c.dir = .output →
      ∃ m' c', Opens fe n t m' c' ∧ c'.dir = .input ∧ c'.inst = c.inst) ∧
    (∀ m c m' c', Opens fe n t m c → Opens fe n t m' c' → c.inst = c'.inst →
      (payload m c).isSome ∧ payload m c = payload m' c') := by
  refine ⟨fun m hm => open_ok fe n t hm, queues_nodup fe n t, modules_nodup fe n t,
    fun m hm c hc => conns_declared fe n t hm hc, ?_, ?_, ?_⟩
  · intro m c m' c' h h' hi hd hk
    obtain ⟨q, q1, q2, q3, q4, q5, q6⟩ := opens_spec fe n t h
    obtain ⟨q', p1, p2, p3, p4, p5, p6⟩ := opens_spec fe n t h'
    have e : q = q' := Q.inj fe (by rw [← q3, ← p3, hi])
    subst e
    have : (m, c) = (m', c') := by
      cases hdir : c.dir with
      | input => rw [q5 hdir, p5 (by rw [← hd, hdir])]
      | output =>
        have hs : q.spsc = true := by
          rcases hk with hk | ⟨x, hx, hxi, hxs⟩
          · rw [hdir] at hk; cases hk
          · obtain ⟨y, _, y2, y3, _⟩ := (mem_queues fe n t).1 hx
            have : y = q := Q.inj fe (by rw [← y2, hxi, q3])
            rw [← this, ← y3, hxs]
        rw [q6 hdir hs, p6 (by rw [← hd, hdir]) hs]
    exact ⟨congrArg Prod.fst this, congrArg Prod.snd this⟩
  · intro m c h _
    obtain ⟨q, q1, q2, q3, -, -, -⟩ := opens_spec fe n t h
    refine ⟨_, _, reader_opens fe n t q1 q2, ?_, ?_⟩
    · cases q <;> rfl
    · rw [q3]; cases q <;> rfl
  · intro m c m' c' h h' hi
    obtain ⟨q, _, _, q3, q4, _⟩ := opens_spec fe n t h
    obtain ⟨q', _, _, p3, p4, _⟩ := opens_spec fe n t h'
    have e : q = q' := Q.inj fe (by rw [← q3, ← p3, hi])
    subst e
    rw [q4, p4]; exact ⟨rfl, rfl⟩

/-- Non-vacuity: with two data links the photon detector application has open ends, and a link queue has two. -/
example : Opens .pdsList 2 1 (dataHandler .pdsList 1) ⟨"raw_input", "pds_list_link_1", .input⟩ ∧
    Opens .pdsList 2 1 (source .pdsList 2 1) ⟨"output_1", "pds_list_link_1", .output⟩ := by
  refine ⟨reader_opens .pdsList 2 1 (q := .lk 1) (by show 1 < 2; omega) (by simp), by simp [modules], _,
    open_source _ _ _, ?_⟩
  simp only [source, List.mem_append, List.mem_map]
  exact Or.inl ⟨1, by decide, rfl⟩

/-- **C88 is false of the generated application (1)** The request queue for trigger primitives is declared and
every software trigger primitive handler is connected to it, but no module opens it: those handlers look for
`data_requests_0`, so nothing sent there is ever read. With two or more links this single-consumer queue also has
several consumers. -/
theorem C88_tp_requests_counterexample :
    (∃ q ∈ queues fe n t, q.inst = "tp_data_requests" ∧ q.spsc = true) ∧
    (∀ i < n, swTpHandler i ∈ modules fe n t ∧ ⟨"requests", "tp_data_requests", .input⟩ ∈ (swTpHandler i).conns) ∧
    (∀ i j, i ≠ j → swTpHandler i ≠ swTpHandler j) ∧
    (∀ m c, Opens fe n t m c → c.inst ≠ "tp_data_requests") ∧
    (∀ i < n, ∀ c, Opens fe n t (swTpHandler i) c → payload (swTpHandler i) c ≠ some .fragment) := by
  refine ⟨declared fe n t (p := .tpReq) trivial, fun i hi => ⟨(mem_modules fe n t).2 ?_, by simp [swTpHandler]⟩, ?_, ?_, ?_⟩
  · exact Or.inr (Or.inr (Or.inr (Or.inr (Or.inl ⟨i, hi, rfl⟩))))
  · intro i j hij h
    exact hij (num_inj.1 (congrArg Mod.name h))
  · intro m c h he
    obtain ⟨q, _, q2, q3, _⟩ := opens_spec fe n t h
    exact q2 (Q.inj fe (by rw [← q3, he]; rfl))
  · rintro i hi c ⟨_, cs, ho, hc⟩
    rw [open_sw] at ho
    injection ho with ho; subst ho
    have hty : handlerType (swTpHandler i).conns = some .swTp := handlerType_raw _ _ _ _ (swTp_types i)
    simp only [swTpHandler] at hty
    simp only [List.mem_cons, List.not_mem_nil, or_false] at hc
    rcases hc with rfl | rfl
    · simp [payload, swTpHandler, hty]
    · simp [payload, swTpHandler]

example : (3 : Nat) < 5 ∧ swTpHandler 3 ∈ modules .wib 5 0 := by
  exact ⟨by omega, (mem_modules .wib 5 0).2 (Or.inr (Or.inr (Or.inr (Or.inr (Or.inl ⟨3, by omega, rfl⟩)))))⟩

/-- **C88** The generated configuration is accepted. The card accepts its links' entries exactly if the files can
be read, and each link then has the file of its kind; each module that needs a configuration (all but the three
consumers) gets exactly one; and enabling software TPG never makes a processor use a sink it does not have. -/
theorem C88_configuration (read : String → Option (List Nat)) (dataFile tpFile : String) (tpg : Bool) :
    (∃ c0, Card.init ((source fe n t).conns.map (fun c => (c.name, c.inst))) = some c0 ∧
      ((Card.doConf read c0 (linkConfs n t dataFile tpFile)).2 = none ↔
        (0 < n → (read dataFile).isSome) ∧ (0 < t → (read tpFile).isSome)) ∧
      ((Card.doConf read c0 (linkConfs n t dataFile tpFile)).2 = none →
        (∀ i < n, Card.lookup (Card.doConf read c0 (linkConfs n t dataFile tpFile)).1.links (num "output_" i) =
          some ⟨true, read dataFile⟩) ∧
        (∀ i, n ≤ i → i < n + t →
          Card.lookup (Card.doConf read c0 (linkConfs n t dataFile tpFile)).1.links (num "output_" i) =
          some ⟨true, read tpFile⟩))) ∧
    (configured n t tpg).Nodup ∧
    (∀ s, s ∈ configured n t tpg ↔ ∃ m ∈ modules fe n t, m.name = s ∧
      (m.plugin = .card ∨ m.plugin = .handler ∨ m.plugin = .network)) ∧
    (∀ m ∈ modules fe n t, m.plugin = .handler → confProcessor m.conns tpg = .ok ()) := by
  refine ⟨?_, ?_, ?_, ?_⟩
  · obtain ⟨c0, hc0⟩ := Option.isSome_iff_exists.1 (source_init fe n t)
    obtain ⟨i1, i2, i3⟩ := Card.init_clean hc0
    have hnames : Card.names c0.links = (List.range n ++ tpRange n t).map (num "output_") := by
      rw [i3, ← source_names fe n t]; simp
    have hexact := Card.C76_conf_exact_partial read c0 (by rw [hnames]; exact nodup_num _ (ranges_nodup n t)) i1
      (linkConfs n t dataFile tpFile)
    have hq : (linkConfs n t dataFile tpFile).map (·.queue) = Card.names c0.links := by
      rw [hnames]; simp [linkConfs, Function.comp_def]
    refine ⟨c0, hc0, ?_, ?_⟩
    · rw [hexact.1]
      constructor
      · rintro ⟨_, h⟩
        refine ⟨fun hn => h ⟨num "output_" 0, dataFile⟩ ?_, fun ht => h ⟨num "output_" n, tpFile⟩ ?_⟩
        · simp only [linkConfs, List.mem_append, List.mem_map, List.mem_range]
          exact Or.inl ⟨0, hn, rfl⟩
        · simp only [linkConfs, List.mem_append, List.mem_map, mem_tpRange]
          exact Or.inr ⟨n, ⟨by omega, by omega⟩, rfl⟩
      · rintro ⟨h1, h2⟩
        refine ⟨by rw [hq], fun x hx => ?_⟩
        simp only [linkConfs, List.mem_append, List.mem_map, List.mem_range, mem_tpRange] at hx
        rcases hx with ⟨i, hi, rfl⟩ | ⟨i, hi, rfl⟩
        · exact h1 (by omega)
        · exact h2 (by omega)
    · intro hok
      have := (hexact.2 hok).2.2
      refine ⟨fun i hi => this ⟨num "output_" i, dataFile⟩ ?_, fun i h1 h2 => this ⟨num "output_" i, tpFile⟩ ?_⟩
      · simp only [linkConfs, List.mem_append, List.mem_map, List.mem_range]
        exact Or.inl ⟨i, hi, rfl⟩
      · simp only [linkConfs, List.mem_append, List.mem_map, mem_tpRange]
        exact Or.inr ⟨i, ⟨h1, h2⟩, rfl⟩
  · have e : configured n t tpg = ([N.src] ++ ((List.range n).map N.data ++ (List.range n).map N.sw ++
        (tpRange n t).map N.raw) ++ (List.range n).map N.pub).map N.str := by
      simp [configured, handlerConfs, publisherConfs, Function.comp_def, N.str]
    rw [e]
    refine nodup_map_inj _ (fun a b h => N.inj h) ?_
    have hr : (List.range n).Nodup := List.nodup_range
    have ht := nodup_tpRange n t
    simp only [List.nodup_append, List.mem_append, List.mem_map, List.mem_singleton]
    refine ⟨⟨by simp, ⟨⟨nodup_map_inj _ (by simp) hr, nodup_map_inj _ (by simp) hr, ?_⟩,
      nodup_map_inj _ (by simp) ht, ?_⟩, ?_⟩, nodup_map_inj _ (by simp) hr, ?_⟩ <;>
    · intro a ha b hb hab
      subst hab
      revert ha hb
      cases a <;> simp
  · intro s
    simp only [configured, handlerConfs, publisherConfs, List.map_append, List.map_map, List.mem_append,
      List.mem_singleton, List.mem_map, List.mem_range, mem_tpRange, Function.comp_apply]
    constructor
    · rintro ((rfl | ((⟨i, hi, rfl⟩ | ⟨i, hi, rfl⟩) | ⟨i, hi, rfl⟩)) | ⟨i, hi, rfl⟩)
      · exact ⟨_, (mem_modules fe n t).2 (Or.inl rfl), rfl, Or.inl rfl⟩
      · exact ⟨_, (mem_modules fe n t).2 (Or.inr (Or.inl ⟨i, hi, rfl⟩)), rfl, Or.inr (Or.inl rfl)⟩
      · exact ⟨_, (mem_modules fe n t).2 (Or.inr (Or.inr (Or.inr (Or.inr (Or.inl ⟨i, hi, rfl⟩))))), rfl,
          Or.inr (Or.inl rfl)⟩
      · exact ⟨_, (mem_modules fe n t).2 (Or.inr (Or.inr (Or.inr (Or.inr (Or.inr (Or.inr (Or.inl ⟨i, hi, rfl⟩))))))),
          rfl, Or.inr (Or.inl rfl)⟩
      · exact ⟨_, (mem_modules fe n t).2 (Or.inr (Or.inr (Or.inr (Or.inr (Or.inr (Or.inl ⟨i, hi, rfl⟩)))))), rfl,
          Or.inr (Or.inr rfl)⟩
    · rintro ⟨m, hm, rfl, hp⟩
      rcases (mem_modules fe n t).1 hm with rfl | ⟨i, hi, rfl⟩ | rfl | rfl | ⟨i, hi, rfl⟩ | ⟨i, hi, rfl⟩ | ⟨i, hi, rfl⟩ | rfl
      · exact Or.inl (Or.inl rfl)
      · exact Or.inl (Or.inr (Or.inl (Or.inl ⟨i, hi, rfl⟩)))
      · simp [timeSyncConsumer] at hp
      · simp [fragmentConsumer] at hp
      · exact Or.inl (Or.inr (Or.inl (Or.inr ⟨i, hi, rfl⟩)))
      · exact Or.inr ⟨i, hi, rfl⟩
      · exact Or.inl (Or.inr (Or.inr ⟨i, hi, rfl⟩))
      · simp [erroredConsumer] at hp
  · intro m hm hp
    rcases (mem_modules fe n t).1 hm with rfl | ⟨i, hi, rfl⟩ | rfl | rfl | ⟨i, hi, rfl⟩ | ⟨i, hi, rfl⟩ | ⟨i, hi, rfl⟩ | rfl
    · cases hp
    · have hty : handlerType (dataHandler fe i).conns = some fe.ty := handlerType_raw _ _ _ _ (link_types fe i).1
      have h1 : (find (dataHandler fe i).conns "tp_out").isSome = true := by rw [find_isSome]; rfl
      have h2 : (find (dataHandler fe i).conns "tpset_out").isSome = true := by rw [find_isSome]; rfl
      unfold confProcessor
      rw [hty]
      cases fe <;> simp [Frontend.ty, h1, h2]
    · cases hp
    · cases hp
    · have hty : handlerType (swTpHandler i).conns = some .swTp := handlerType_raw _ _ _ _ (swTp_types i)
      simp [confProcessor, hty]
    · cases hp
    · have hty : handlerType (rawTpHandler i).conns = some .rawTp := handlerType_raw _ _ _ _ (rawTp_types i).1
      simp [confProcessor, hty]
    · cases hp

/-- A processor without the two sinks would use a null pointer: the last clause of `C88_configuration` is not
vacuous. -/
example : confProcessor [⟨"raw_input", "wib_link_0", .input⟩] true = .ub .nullDeref := by decide +kernel

/-- Opening queues by name succeeds exactly if all names are there, and then gives their connections in order. -/
theorem openAll_spec (cs : List Conn) (ns : List String) :
    openAll cs ns = if ns.all (fun n => (find cs n).isSome) then .ok (ns.filterMap (find cs)) else .throws .configError := by
  induction ns with
  | nil => rfl
  | cons n ns ih =>
    rw [openAll]
    cases h : find cs n with
    | none => simp [h]
    | some c =>
      simp only [ih, List.all_cons, h, Option.isSome_some, Bool.true_and, List.filterMap_cons]
      split <;> rfl

/-- **C88 (missing queue)** A handler that lacks its input or its time sync queue does not come up. -/
theorem C88_missing_queue (cs : List Conn) (n : String) (hn : n = "raw_input" ∨ n = "timesync") (h : ∀ c ∈ cs, c.name ≠ n) :
    ¬ (openHandler cs).IsOk := by
  have hf : find cs n = none := by
    unfold find
    rw [List.find?_eq_none]
    intro c hc
    simpa using h c hc
  have hb : openAll cs ["raw_input", "timesync"] = .throws .configError := by
    rw [openAll_spec, if_neg]
    rcases hn with rfl | rfl <;> simp [hf]
  unfold openHandler
  cases handlerType cs with
  | none => simp [Outcome.IsOk]
  | some ty =>
    simp only
    cases Route.setup (numbered cs) with
    | ok ks =>
      simp only [Outcome.bind_ok]
      cases openAll cs (ks.flatMap (fun k => [num "data_requests_" k, num "data_response_" k])) with
      | ok p => simp only [Outcome.bind_ok, hb, Outcome.bind_throws]; simp [Outcome.IsOk]
      | ub u => simp [Outcome.IsOk]
      | throws e => simp [Outcome.IsOk]
    | ub u => simp [Outcome.IsOk]
    | throws e => simp [Outcome.IsOk]

/-- The generated handlers with their input taken away do not come up. -/
example : ¬ (openHandler ((dataHandler .wib 0).conns.filter (fun c => c.name != "raw_input"))).IsOk :=
  C88_missing_queue _ "raw_input" (Or.inl rfl) (by intro c hc; simpa using (List.mem_filter.1 hc).2)

/-- **C88 (why it matters)** A detector link handler accepts software TPG exactly if both of its sinks are connected;
with one of them missing the configuration is undefined behaviour. -/
theorem C88_tpg_sinks (cs : List Conn) (hty : handlerType cs = some .wib) :
    (confProcessor cs true = .ok () ↔ (∃ c, find cs "tp_out" = some c) ∧ ∃ c, find cs "tpset_out" = some c) ∧
    (¬ ((∃ c, find cs "tp_out" = some c) ∧ ∃ c, find cs "tpset_out" = some c) →
      confProcessor cs true = .ub .nullDeref) ∧ confProcessor cs false = .ok () := by
  cases h1 : find cs "tp_out" <;> cases h2 : find cs "tpset_out" <;> simp [confProcessor, hty, h1, h2]

/-- Only the trigger primitive sets are connected. -/
example : confProcessor [⟨"raw_input", "wib_link_0", .input⟩, ⟨"tpset_out", "tpsets_0", .output⟩] true =
    .ub .nullDeref := by decide +kernel

theorem outFile_inj {i j : Nat} (h : outFile i = outFile j) : i = j := by
  have := congrArg String.toList h
  simp only [outFile, String.toList_append, num_toList] at this
  exact toDigits_inj (List.append_cancel_left (List.append_cancel_right this))

/-- **C88** Identifiers: no two recording handlers write to the same file, no two publishers use the same port, no
two handlers of detector or raw trigger primitive links have the same element number, and the record command reaches
only handlers that are configured for recording. -/
theorem C88_identifiers (tpg : Bool) :
    (((handlerConfs n t tpg).filter (·.recording)).map (·.outputFile)).Nodup ∧
    ((publisherConfs n).map (·.2)).Nodup ∧
    (∀ h ∈ handlerConfs n t tpg, ∀ h' ∈ handlerConfs n t tpg,
      h.region = h'.region → h.element = h'.element → h = h' ∨
      h.module = num "sw_tp_handler_" h.element ∨ h'.module = num "sw_tp_handler_" h.element) ∧
    (∀ m ∈ modules fe n t, recordPat.covers m.name = true →
      ∃ h ∈ handlerConfs n t tpg, h.module = m.name ∧ h.recording = true) := by
  have hr : (List.range n).Nodup := List.nodup_range
  refine ⟨?_, ?_, ?_, ?_⟩
  · have e : ((handlerConfs n t tpg).filter (·.recording)).map (·.outputFile) = (List.range n).map outFile := by
      simp [handlerConfs, List.filter_append, List.filter_map, Function.comp_def]
    rw [e]
    exact nodup_map_inj _ (fun a b h => outFile_inj h) hr
  · simp only [publisherConfs, List.map_map, Function.comp_def]
    exact nodup_map_inj _ (fun a b h => by omega) hr
  · intro h hh h' hh' _ he
    simp only [handlerConfs, List.mem_append, List.mem_map, List.mem_range, mem_tpRange] at hh hh'
    rcases hh with (⟨i, hi, rfl⟩ | ⟨i, hi, rfl⟩) | ⟨i, hi, rfl⟩ <;>
    rcases hh' with (⟨j, hj, rfl⟩ | ⟨j, hj, rfl⟩) | ⟨j, hj, rfl⟩ <;>
    · have he' : i = j := he
      subst he'
      first
        | exact Or.inl rfl
        | exact Or.inr (Or.inl rfl)
        | exact Or.inr (Or.inr rfl)
        | (exfalso; omega)
  · intro m hm hc
    rcases (mem_modules fe n t).1 hm with rfl | ⟨i, hi, rfl⟩ | rfl | rfl | ⟨i, hi, rfl⟩ | ⟨i, hi, rfl⟩ | ⟨i, hi, rfl⟩ | rfl
    · exfalso; revert hc; simp [recordPat, Pat.covers, source, List.isPrefixOf]
    · refine ⟨⟨num "datahandler_" i, 0, i, outFile i, true, tpg⟩, ?_, rfl, rfl⟩
      simp only [handlerConfs, List.mem_append, List.mem_map, List.mem_range]
      exact Or.inl (Or.inl ⟨i, hi, rfl⟩)
    · exfalso; revert hc; simp [recordPat, Pat.covers, timeSyncConsumer, List.isPrefixOf]
    · exfalso; revert hc; simp [recordPat, Pat.covers, fragmentConsumer, List.isPrefixOf]
    · exfalso; revert hc; simp [recordPat, Pat.covers, swTpHandler, num_toList, List.isPrefixOf]
    · exfalso; revert hc; simp [recordPat, Pat.covers, publisher, num_toList, List.isPrefixOf]
    · exfalso; revert hc; simp [recordPat, Pat.covers, rawTpHandler, num_toList, List.isPrefixOf]
    · exfalso; revert hc; simp [recordPat, Pat.covers, erroredConsumer, List.isPrefixOf]

example : recordPat.covers (num "datahandler_" 7) = true ∧ recordPat.covers "fake_source" = false := by
  decide +kernel

/-- **C88 is false of the generated application (2)** A detector link handler and the handler of its software
trigger primitives have the same region and element number, and name the same output file. -/
theorem C88_geoid_counterexample (tpg : Bool) (i : Nat) (hi : i < n) :
    ∃ h ∈ handlerConfs n t tpg, ∃ h' ∈ handlerConfs n t tpg, h.module ≠ h'.module ∧
      h.region = h'.region ∧ h.element = h'.element ∧ h.outputFile = h'.outputFile := by
  refine ⟨⟨num "datahandler_" i, 0, i, outFile i, true, tpg⟩, ?_, ⟨num "sw_tp_handler_" i, 0, i, outFile i, false, tpg⟩,
    ?_, ?_, rfl, rfl, rfl⟩
  · simp only [handlerConfs, List.mem_append, List.mem_map, List.mem_range]
    exact Or.inl (Or.inl ⟨i, hi, rfl⟩)
  · simp only [handlerConfs, List.mem_append, List.mem_map, List.mem_range]
    exact Or.inl (Or.inr ⟨i, hi, rfl⟩)
  · intro h
    have := N.inj (a := .data i) (b := .sw i) h
    cases this

/-- Specification: when a command reaches a module. -/
def turn (seq : List Pat) (m : Mod) : Nat := seq.findIdx (·.covers m.name)

theorem cover_facts (seq : List Pat) (s : String) (bs : List Bool) (h : seq.map (·.covers s) = bs) :
    (seq.filter (·.covers s)).length = bs.count true ∧ seq.findIdx (·.covers s) = bs.findIdx id := by
  subst h
  induction seq with
  | nil => exact ⟨rfl, rfl⟩
  | cons a l ih =>
    cases hc : a.covers s with
    | true =>
      refine ⟨?_, by simp [List.findIdx_cons, hc]⟩
      simp only [List.map_cons, hc, List.count_cons_self, ← ih.1]
      rw [List.filter_cons_of_pos (by exact hc), List.length_cons]
    | false =>
      refine ⟨?_, ?_⟩
      · rw [List.filter_cons_of_neg (by simp [hc]), ih.1]
        simp [hc]
      · simp only [List.map_cons, List.findIdx_cons, hc, cond_false, id, ih.2]

theorem not_exact (p s : String) (i : Nat) (h : p.toList ++ Nat.toDigits 10 i ≠ s.toList) : (s == num p i) = false := by
  rw [beq_eq_false_iff_ne]
  intro he
  apply h
  rw [he, num_toList]

theorem cover_data (i : Nat) :
    startSeq.map (·.covers (num "datahandler_" i)) = [true, false, false, false, false, false, false, false, false] ∧
    stopSeq.map (·.covers (num "datahandler_" i)) = [false, true, false, false, false, false, false, false, false] := by
  have h1 := not_exact "datahandler_" "fake_source" i (by simp)
  have h2 := not_exact "datahandler_" "timesync_consumer" i (by simp)
  have h3 := not_exact "datahandler_" "fragment_consumer" i (by simp)
  have h4 := not_exact "datahandler_" "errored_frame_consumer" i (by simp)
  simp only [startSeq, stopSeq, List.map_cons, List.map_nil, Pat.covers, h1, h2, h3, h4, num_toList]
  simp [List.isPrefixOf]

theorem cover_sw (i : Nat) :
    startSeq.map (·.covers (num "sw_tp_handler_" i)) = [false, false, false, false, false, true, false, false, false] ∧
    stopSeq.map (·.covers (num "sw_tp_handler_" i)) = [false, false, false, false, false, true, false, false, false] := by
  have h1 := not_exact "sw_tp_handler_" "fake_source" i (by simp)
  have h2 := not_exact "sw_tp_handler_" "timesync_consumer" i (by simp)
  have h3 := not_exact "sw_tp_handler_" "fragment_consumer" i (by simp)
  have h4 := not_exact "sw_tp_handler_" "errored_frame_consumer" i (by simp)
  simp only [startSeq, stopSeq, List.map_cons, List.map_nil, Pat.covers, h1, h2, h3, h4, num_toList]
  simp [List.isPrefixOf]

theorem cover_pub (i : Nat) :
    startSeq.map (·.covers (num "tpset_publisher_" i)) = [false, false, false, false, false, false, false, true, false] ∧
    stopSeq.map (·.covers (num "tpset_publisher_" i)) = [false, false, false, false, false, false, false, true, false] := by
  have h1 := not_exact "tpset_publisher_" "fake_source" i (by simp)
  have h2 := not_exact "tpset_publisher_" "timesync_consumer" i (by simp)
  have h3 := not_exact "tpset_publisher_" "fragment_consumer" i (by simp)
  have h4 := not_exact "tpset_publisher_" "errored_frame_consumer" i (by simp)
  simp only [startSeq, stopSeq, List.map_cons, List.map_nil, Pat.covers, h1, h2, h3, h4, num_toList]
  simp [List.isPrefixOf]

theorem cover_raw (i : Nat) :
    startSeq.map (·.covers (num "raw_tp_handler_" i)) = [false, false, false, false, false, false, true, false, false] ∧
    stopSeq.map (·.covers (num "raw_tp_handler_" i)) = [false, false, false, false, false, false, true, false, false] := by
  have h1 := not_exact "raw_tp_handler_" "fake_source" i (by simp)
  have h2 := not_exact "raw_tp_handler_" "timesync_consumer" i (by simp)
  have h3 := not_exact "raw_tp_handler_" "fragment_consumer" i (by simp)
  have h4 := not_exact "raw_tp_handler_" "errored_frame_consumer" i (by simp)
  simp only [startSeq, stopSeq, List.map_cons, List.map_nil, Pat.covers, h1, h2, h3, h4, num_toList]
  simp [List.isPrefixOf]

/-- When each module is reached by the start and by the stop command: by exactly one pattern, namely the one given. -/
theorem turns {m : Mod} (hm : m ∈ modules fe n t) :
    (startSeq.filter (·.covers m.name)).length = 1 ∧ (stopSeq.filter (·.covers m.name)).length = 1 ∧
    (m = source fe n t ∧ turn startSeq m = 1 ∧ turn stopSeq m = 0 ∨
     (∃ i < n, m = dataHandler fe i) ∧ turn startSeq m = 0 ∧ turn stopSeq m = 1 ∨
     m = timeSyncConsumer ∧ turn startSeq m = 3 ∧ turn stopSeq m = 3 ∨
     m = fragmentConsumer ∧ turn startSeq m = 4 ∧ turn stopSeq m = 4 ∨
     (∃ i < n, m = swTpHandler i) ∧ turn startSeq m = 5 ∧ turn stopSeq m = 5 ∨
     (∃ i < n, m = publisher i) ∧ turn startSeq m = 7 ∧ turn stopSeq m = 7 ∨
     (∃ i, (n ≤ i ∧ i < n + t) ∧ m = rawTpHandler i) ∧ turn startSeq m = 6 ∧ turn stopSeq m = 6 ∨
     m = erroredConsumer ∧ turn startSeq m = 8 ∧ turn stopSeq m = 8) := by
  rcases (mem_modules fe n t).1 hm with h | ⟨i, hi, h⟩ | h | h | ⟨i, hi, h⟩ | ⟨i, hi, h⟩ | ⟨i, hi, h⟩ | h
  · have hn : m.name = "fake_source" := congrArg Mod.name h
    have e1 := cover_facts startSeq "fake_source" [false, true, false, false, false, false, false, false, false] (by decide +kernel)
    have e2 := cover_facts stopSeq "fake_source" [true, false, false, false, false, false, false, false, false] (by decide +kernel)
    rw [← hn] at e1 e2
    exact ⟨e1.1, e2.1, Or.inl ⟨h, e1.2, e2.2⟩⟩
  · have hn : m.name = num "datahandler_" i := congrArg Mod.name h
    have e1 := cover_facts startSeq _ _ (cover_data i).1
    have e2 := cover_facts stopSeq _ _ (cover_data i).2
    rw [← hn] at e1 e2
    exact ⟨e1.1, e2.1, Or.inr (Or.inl ⟨⟨i, hi, h⟩, e1.2, e2.2⟩)⟩
  · have hn : m.name = "timesync_consumer" := congrArg Mod.name h
    have e1 := cover_facts startSeq "timesync_consumer" [false, false, false, true, false, false, false, false, false] (by decide +kernel)
    have e2 := cover_facts stopSeq "timesync_consumer" [false, false, false, true, false, false, false, false, false] (by decide +kernel)
    rw [← hn] at e1 e2
    exact ⟨e1.1, e2.1, Or.inr (Or.inr (Or.inl ⟨h, e1.2, e2.2⟩))⟩
  · have hn : m.name = "fragment_consumer" := congrArg Mod.name h
    have e1 := cover_facts startSeq "fragment_consumer" [false, false, false, false, true, false, false, false, false] (by decide +kernel)
    have e2 := cover_facts stopSeq "fragment_consumer" [false, false, false, false, true, false, false, false, false] (by decide +kernel)
    rw [← hn] at e1 e2
    exact ⟨e1.1, e2.1, Or.inr (Or.inr (Or.inr (Or.inl ⟨h, e1.2, e2.2⟩)))⟩
  · have hn : m.name = num "sw_tp_handler_" i := congrArg Mod.name h
    have e1 := cover_facts startSeq _ _ (cover_sw i).1
    have e2 := cover_facts stopSeq _ _ (cover_sw i).2
    rw [← hn] at e1 e2
    exact ⟨e1.1, e2.1, Or.inr (Or.inr (Or.inr (Or.inr (Or.inl ⟨⟨i, hi, h⟩, e1.2, e2.2⟩))))⟩
  · have hn : m.name = num "tpset_publisher_" i := congrArg Mod.name h
    have e1 := cover_facts startSeq _ _ (cover_pub i).1
    have e2 := cover_facts stopSeq _ _ (cover_pub i).2
    rw [← hn] at e1 e2
    exact ⟨e1.1, e2.1, Or.inr (Or.inr (Or.inr (Or.inr (Or.inr (Or.inl ⟨⟨i, hi, h⟩, e1.2, e2.2⟩)))))⟩
  · have hn : m.name = num "raw_tp_handler_" i := congrArg Mod.name h
    have e1 := cover_facts startSeq _ _ (cover_raw i).1
    have e2 := cover_facts stopSeq _ _ (cover_raw i).2
    rw [← hn] at e1 e2
    exact ⟨e1.1, e2.1, Or.inr (Or.inr (Or.inr (Or.inr (Or.inr (Or.inr (Or.inl ⟨⟨i, hi, h⟩, e1.2, e2.2⟩))))))⟩
  · have hn : m.name = "errored_frame_consumer" := congrArg Mod.name h
    have e1 := cover_facts startSeq "errored_frame_consumer" [false, false, false, false, false, false, false, false, true] (by decide +kernel)
    have e2 := cover_facts stopSeq "errored_frame_consumer" [false, false, false, false, false, false, false, false, true] (by decide +kernel)
    rw [← hn] at e1 e2
    exact ⟨e1.1, e2.1, Or.inr (Or.inr (Or.inr (Or.inr (Or.inr (Or.inr (Or.inr ⟨h, e1.2, e2.2⟩))))))⟩

theorem writers {m : Mod} {c : Conn} (h : Opens fe n t m c) (hd : c.dir = .output) :
    m = source fe n t ∨ (∃ i < n, m = dataHandler fe i) ∨
    c.inst = "time_sync_q" ∧ ((∃ i < n, m = swTpHandler i) ∨ ∃ i, (n ≤ i ∧ i < n + t) ∧ m = rawTpHandler i) := by
  obtain ⟨hm, cs, ho, hc⟩ := h
  rcases (mem_modules fe n t).1 hm with rfl | ⟨i, hi, rfl⟩ | rfl | rfl | ⟨i, hi, rfl⟩ | ⟨i, hi, rfl⟩ | ⟨i, hi, rfl⟩ | rfl
  · exact Or.inl rfl
  · exact Or.inr (Or.inl ⟨i, hi, rfl⟩)
  · have ho' : openMod timeSyncConsumer = .ok [⟨"input_queue", "time_sync_q", .input⟩] := rfl
    rw [ho'] at ho; injection ho with ho; subst ho
    rw [List.mem_singleton] at hc; subst hc; cases hd
  · have ho' : openMod fragmentConsumer = .ok [⟨"input_queue", "data_fragments_q", .input⟩] := rfl
    rw [ho'] at ho; injection ho with ho; subst ho
    rw [List.mem_singleton] at hc; subst hc; cases hd
  · rw [open_sw] at ho
    injection ho with ho; subst ho
    simp only [List.mem_cons, List.not_mem_nil, or_false] at hc
    rcases hc with rfl | rfl
    · cases hd
    · exact Or.inr (Or.inr ⟨rfl, Or.inl ⟨i, hi, rfl⟩⟩)
  · have ho' : openMod (publisher i) = .ok [⟨"input", num "tpset_link_" i, .input⟩] := rfl
    rw [ho'] at ho; injection ho with ho; subst ho
    rw [List.mem_singleton] at hc; subst hc; cases hd
  · rw [open_raw] at ho
    injection ho with ho; subst ho
    simp only [List.mem_cons, List.not_mem_nil, or_false] at hc
    rcases hc with rfl | rfl
    · cases hd
    · exact Or.inr (Or.inr ⟨rfl, Or.inr ⟨i, hi, rfl⟩⟩)
  · have ho' : openMod erroredConsumer = .ok [⟨"input_queue", "errored_frames_q", .input⟩] := rfl
    rw [ho'] at ho; injection ho with ho; subst ho
    rw [List.mem_singleton] at hc; subst hc; cases hd

theorem data_ne_source (i : Nat) : dataHandler fe i ≠ source fe n t := by
  intro h
  have := N.inj (a := .data i) (b := .src) (congrArg Mod.name h)
  cases this

theorem turn_source : turn startSeq (source fe n t) = 1 ∧ turn stopSeq (source fe n t) = 0 :=
  ⟨(cover_facts startSeq "fake_source" [false, true, false, false, false, false, false, false, false]
      (by decide +kernel)).2,
   (cover_facts stopSeq "fake_source" [true, false, false, false, false, false, false, false, false]
      (by decide +kernel)).2⟩

theorem turn_data (i : Nat) : turn startSeq (dataHandler fe i) = 0 ∧ turn stopSeq (dataHandler fe i) = 1 :=
  ⟨(cover_facts startSeq _ _ (cover_data i).1).2, (cover_facts stopSeq _ _ (cover_data i).2).2⟩

/-- **C88** Commands: start and stop reach every module through exactly one entry. At start every detector link
handler is running before the card sends. At stop every reader of a queue is stopped after every writer, except
that the consumer of time syncs is stopped before the trigger primitive handlers. -/
theorem C88_commands_partial :
    (∀ m ∈ modules fe n t, (startSeq.filter (·.covers m.name)).length = 1 ∧
      (stopSeq.filter (·.covers m.name)).length = 1) ∧
    (∀ i < n, turn startSeq (dataHandler fe i) < turn startSeq (source fe n t)) ∧
    (∀ m c m' c', Opens fe n t m c → Opens fe n t m' c' → c.inst = c'.inst → c.dir = .output → c'.dir = .input →
      turn stopSeq m < turn stopSeq m' ∨
      c.inst = "time_sync_q" ∧ ((∃ i < n, m = swTpHandler i) ∨ ∃ i, (n ≤ i ∧ i < n + t) ∧ m = rawTpHandler i)) := by
  refine ⟨fun m hm => ⟨(turns fe n t hm).1, (turns fe n t hm).2.1⟩, fun i _ => ?_, ?_⟩
  · rw [(turn_data fe i).1, (turn_source fe n t).1]; omega
  · intro m c m' c' h h' hi hd hd'
    obtain ⟨q, -, -, q3, -, -, q6⟩ := opens_spec fe n t h
    obtain ⟨q', -, p2, p3, -, p5, -⟩ := opens_spec fe n t h'
    have e : q = q' := Q.inj fe (by rw [← q3, ← p3, hi])
    subst e
    have hr : m' = (q.reader fe).1 := congrArg Prod.fst (p5 hd')
    rcases writers fe n t h hd with rfl | ⟨i, hin, rfl⟩ | hw
    · left
      rw [(turn_source fe n t).2]
      rcases (turns fe n t h'.1).2.2 with hx | hx | hx | hx | hx | hx | hx | hx
      · exfalso
        rw [hx.1] at hr
        have hn := congrArg Mod.name hr
        have key : ∀ k : N, k ≠ .src → "fake_source" ≠ k.str := fun k hk hs => hk (N.inj (a := .src) hs).symm
        cases q with
        | ts => exact key .tsc (by simp) hn
        | fr => exact key .frc (by simp) hn
        | er => exact key .erc (by simp) hn
        | tpReq => exact p2 rfl
        | req j => exact key (.data j) (by simp) hn
        | lk j => exact key (.data j) (by simp) hn
        | raw j => exact key (.raw j) (by simp) hn
        | sw j => exact key (.sw j) (by simp) hn
        | tps j => exact key (.pub j) (by simp) hn
      all_goals (rw [hx.2.2]; omega)
    · left
      rw [(turn_data fe i).2]
      rcases (turns fe n t h'.1).2.2 with hx | hx | hx | hx | hx | hx | hx | hx
      · exfalso
        obtain ⟨hx1, -, -⟩ := hx
        rw [hx1] at hr
        have hn := congrArg Mod.name hr
        have key : ∀ k : N, k ≠ .src → "fake_source" ≠ k.str := fun k hk hs => hk (N.inj (a := .src) hs).symm
        cases q with
        | ts => exact key .tsc (by simp) hn
        | fr => exact key .frc (by simp) hn
        | er => exact key .erc (by simp) hn
        | tpReq => exact p2 rfl
        | req j => exact key (.data j) (by simp) hn
        | lk j => exact key (.data j) (by simp) hn
        | raw j => exact key (.raw j) (by simp) hn
        | sw j => exact key (.sw j) (by simp) hn
        | tps j => exact key (.pub j) (by simp) hn
      · exfalso
        obtain ⟨⟨j, _, hj⟩, -, -⟩ := hx
        rw [hj] at hr
        have hn := congrArg Mod.name hr
        have key : ∀ k : N, k ≠ .data j → num "datahandler_" j ≠ k.str :=
          fun k hk hs => hk (N.inj (a := .data j) hs).symm
        cases q with
        | ts => exact key .tsc (by simp) hn
        | fr => exact key .frc (by simp) hn
        | er => exact key .erc (by simp) hn
        | tpReq => exact p2 rfl
        | req k => exact data_ne_source fe n t i (congrArg Prod.fst (q6 hd rfl))
        | lk k => exact data_ne_source fe n t i (congrArg Prod.fst (q6 hd rfl))
        | raw k => exact key (.raw k) (by simp) hn
        | sw k => exact key (.sw k) (by simp) hn
        | tps k => exact key (.pub k) (by simp) hn
      all_goals (rw [hx.2.2]; omega)
    · exact Or.inr hw

/-- **C88 is false of the generated application (3)** The exception is real: the trigger primitive handlers send
time syncs until they are stopped, after the consumer of time syncs; and at start the card sends to the raw trigger
primitive handlers before they run. -/
theorem C88_order_counterexample (i : Nat) (hi : i < n) (j : Nat) (hj : n ≤ j ∧ j < n + t) :
    (Opens fe n t (swTpHandler i) ⟨"timesync", "time_sync_q", .output⟩ ∧
     Opens fe n t timeSyncConsumer ⟨"input_queue", "time_sync_q", .input⟩ ∧
     turn stopSeq timeSyncConsumer < turn stopSeq (swTpHandler i)) ∧
    (Opens fe n t (source fe n t) ⟨num "output_" j, num "raw_tp_link_" j, .output⟩ ∧
     Opens fe n t (rawTpHandler j) ⟨"raw_input", num "raw_tp_link_" j, .input⟩ ∧
     turn startSeq (source fe n t) < turn startSeq (rawTpHandler j)) := by
  refine ⟨⟨⟨(mem_modules fe n t).2 ?_, _, open_sw i, by simp⟩, reader_opens fe n t (q := .ts) trivial (by simp), ?_⟩,
    ⟨⟨(mem_modules fe n t).2 (Or.inl rfl), _, open_source fe n t, ?_⟩,
      reader_opens fe n t (q := .raw j) hj (by simp), ?_⟩⟩
  · exact Or.inr (Or.inr (Or.inr (Or.inr (Or.inl ⟨i, hi, rfl⟩))))
  · have e1 : turn stopSeq timeSyncConsumer = 3 := (cover_facts stopSeq "timesync_consumer"
      [false, false, false, true, false, false, false, false, false] (by decide +kernel)).2
    have e2 : turn stopSeq (swTpHandler i) = 5 := (cover_facts stopSeq _ _ (cover_sw i).2).2
    omega
  · simp only [source, List.mem_append, List.mem_map, mem_tpRange]
    exact Or.inr ⟨j, hj, rfl⟩
  · have e2 : turn startSeq (rawTpHandler j) = 6 := (cover_facts startSeq _ _ (cover_raw j).1).2
    rw [(turn_source fe n t).1, e2]; omega

example : (0 : Nat) < 2 ∧ 2 ≤ 3 ∧ 3 < 2 + 2 := by omega

end Verif.ConfGen
