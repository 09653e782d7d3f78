import Verif.RecSessProps
import Verif.FileDirect
/- Property C97 with O_DIRECT: exactly when the recording file is complete. -/
namespace Verif.RecSess
open Verif.Ring Verif.Record
open Verif.DataReq (PayloadType)

variable {P : Type}

/-- **C97 (O_DIRECT, exact)** With O_DIRECT and a buffer, whenever no recording is under way, after any number of record
commands, runs, arrivals and cleanups: the file holds the payloads of all recordings, one recording after the other,
if and only if every recording fits into the writer's buffer or begins on a block boundary of the file with buffers of
whole blocks. In every case the file holds a beginning of the recordings, and nothing else. -/
theorem C97_direct_exact (T : PayloadType P) (hsp : ∀ p, 0 < span T p) (limit : Nat) (toPop : Nat → Nat)
    (fc : File.Cfg) (hd : fc.useDirect = true) (hc : 0 < fc.cap) (bytes : P → List Nat) (n : Nat) (hn : 2 ≤ n)
    (hn2 : n ≤ endIdx) (s : St P) (h : Reach T limit toPop fc bytes n s) (hth : s.th = .ready) :
    (s.w.file = s.recs.flatMap (fun x => x.2.flatMap bytes) ↔
      File.AllThrough fc 0 (s.recs.map fun x => (x.2.flatMap bytes).length)) ∧
    s.w.file <+: s.recs.flatMap (fun x => x.2.flatMap bytes) := by
  have inv := inv_reach hsp hn hn2 h
  have hw := inv.w
  rw [inv.none (.inl hth)] at hw
  have e4 : s.w = (File.ops fc (File.openW fc []) (allOps bytes s.recs)).1 := by simpa [recOps] using hw
  rw [e4]
  exact file_direct fc hd hc bytes s.recs

/-- Non-vacuity: two recordings of one and two payloads with blocks and buffers of two bytes; both are in the file. -/
example : ∃ s, Reach demoT 2 (fun n => n * 4 / 5) ⟨2, true, 2, false⟩ oneByte 6 s ∧
    view s = ⟨[(0, [10]), (0, [10, 20])], [10, 10, 20], [.started, .started], .ready, [10, 20], []⟩ ∧
    File.AllThrough ⟨2, true, 2, false⟩ 0 [1, 2] := by
  obtain ⟨s, h, v⟩ := moves_view (limit := 2) (toPop := fun n => n * 4 / 5) (fc := ⟨2, true, 2, false⟩) (n := 6)
    (by decide) (by decide)
    ([.arrive 10, .command] ++ recMoves 5 ++ [.arrive 20, .command] ++ recMoves 7)
    ⟨[(0, [10]), (0, [10, 20])], [10, 10, 20], [.started, .started], .ready, [10, 20], []⟩ (by decide +kernel)
  exact ⟨s, h, v, by simp [File.AllThrough, File.Through]⟩

end Verif.RecSess
