import Mathlib.Data.Real.Basic
import Verif.Sms.FitModel
import Verif.Tracker.Spec

/-!
# What a fitted track should be compared with
-/

set_option autoImplicit false

namespace Verif.Sample

open Verif.Tracker

/-- The samples of a track with their absolute frames. -/
def kept {K : Type*} (t : Track K) : List (Nat × Peak K) :=
  (List.range' t.start t.mag.length).filterMap fun k => (t.sampleAt k).map fun pk => (k, pk)

/-- Time of a frame up to a constant: forward time in seconds. -/
noncomputable def pointTime (p : Sms.Params ℝ) (k : Nat) : ℝ :=
  (if p.modal = true ∧ p.tracker.reverse = true then -(k : ℝ) else (k : ℝ)) * (p.hop : ℝ) / p.tracker.fs

/-- What a regression of a track is made from: forward time (up to a constant) and magnitude. -/
noncomputable def trackPoints (p : Sms.Params ℝ) (t : Track ℝ) : List (ℝ × ℝ) :=
  (kept t).map fun e => (pointTime p e.1, e.2.mag)

end Verif.Sample
