import Verif.Out.Variants

/-!
# Frequency scales with variants (`sample/psycho.py:14-359`)

Which body is run for which value of `mode` / `degree`.
-/

set_option autoImplicit false

namespace Verif.Psycho

open Verif.Out Verif.Utils

/-- `hz2bark`, `sample/psycho.py:14-25, 42, 67, 88`; the undecorated function is never called. -/
noncomputable def hz2barkV : Variants Body :=
  (((withVariants ([], 0) "mode" "traunmuller" none).register "zwicker" (hz2barkZwicker, 1)).register
    "traunmuller" (hz2barkTraunmuller, 1)).register "wang" (hz2barkWang, 0)

/-- `bark2hz`, `sample/psycho.py:28-39, 106, 127`. -/
noncomputable def bark2hzV : Variants Body :=
  ((withVariants ([], 0) "mode" "traunmuller" none).register "traunmuller"
    (bark2hzTraunmuller, 1)).register "wang" (bark2hzWang, 0)

/-- `hz2mel`, `sample/psycho.py:145, 183`. -/
noncomputable def hz2melV : Variants Body :=
  (withVariants (hz2mel, 0) "mode" "default" (some "default")).register "fant" (hz2melFant, 0)

/-- `mel2hz`, `sample/psycho.py:164, 202`. -/
noncomputable def mel2hzV : Variants Body :=
  (withVariants (mel2hz, 0) "mode" "default" (some "default")).register "fant" (mel2hzFant, 0)

/-- `erb`, `sample/psycho.py:221-223, 250`. -/
noncomputable def erbV : Variants Body :=
  (withVariants (erb, 1) "degree" "quadratic" (some "quadratic")).register "linear" (erbLinear, 0)

/-- `hz2cams`, `sample/psycho.py:269-271, 297`. -/
noncomputable def hz2camsV : Variants Body :=
  (withVariants (hz2cams, 1) "degree" "quadratic" (some "quadratic")).register "linear"
    (hz2camsLinear, 0)

/-- `cams2hz`, `sample/psycho.py:315-317, 344`. -/
noncomputable def cams2hzV : Variants Body :=
  (withVariants (cams2hz, 1) "degree" "quadratic" (some "quadratic")).register "linear"
    (cams2hzLinear, 0)

end Verif.Psycho
