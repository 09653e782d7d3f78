import Verif.ConfModel
import Verif.TpRunsModel
/-
The settings that python/readout/app_confgen.py writes for the handler of a data link, as functions of the slowdown
factor: the sizes of buffer and pointer queue and the two cleanup fractions.

The size is a Python float in the file; the handler takes its integer part. The fractions are rounded to single
precision (`rnd`) when they are read (schema/readout/readoutconfig.jsonnet l.28).
-/
namespace Verif.GenSet

/-- `latency_buffer_size`, app_confgen.py l.39, 295-297, 309-311: three seconds of superchunks of 300 ticks at 50 MHz. -/
def size (slow : Nat) : Nat := 150000000 / (300 * slow)

/-- The request handler's part, app_confgen.py l.308-320. -/
def params (rnd : ℚ → ℚ) (slow : Nat) (file : String) : Conf.Params :=
  ⟨rnd (4/5), rnd (1/10), size slow, true, file⟩

/-- The settings of the post-processing: the pointer queue has the default size 10000, of which a
`folly::ProducerConsumerQueue` uses 9999 (readoutconfig.jsonnet l.59, TaskRawDataProcessorModel.hpp l.51-56); the
cleanup is that of the handler `h` (DefaultRequestHandlerModel.hpp l.419-421). -/
def post (rnd : ℚ → ℚ) (h : Conf.Handler) (slow : Nat) : TpRuns.Cfg :=
  ⟨size slow, 9999, h.limitSize, Cleanup.toPopOf rnd h.sizePct⟩

end Verif.GenSet
