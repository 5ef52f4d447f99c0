import Verif.Out.Variants

/-!
# `normalize` (`sample/utils/dsp.py:12-59`)

The bodies are in `Verif.Out.Functions`.
-/

set_option autoImplicit false

namespace Verif.Dsp

open Verif.Out Verif.Utils

/-- `normalize` and its variants, `sample/utils/dsp.py:12, 30, 46`. -/
noncomputable def normalizeV : Variants Body :=
  ((withVariants (normalizePeak, 0) "mode" "peak" (some "peak")).register "rms"
    (normalizeRms, 0)).register "range" (normalizeRange, 0)

/-- `normalize(x, mode=mode)`; `none` if `mode` is not given. -/
noncomputable def normalize (mode : Option String) (x : List Cell) : Except PyErr (List Cell) :=
  callV normalizeV (kwOpt "mode" mode) x

end Verif.Dsp
