import Verif.Float.TrackerModel
import Verif.Float.SynthModel
import Verif.Tracker.ModalModel

/-!
# The modal tracker in floating point (`sample/sms/mm.py:18-187`)

The results of NumPy's averages and of the regression are arbitrary (`Numerics`); differences,
thresholds and lengths are rounded operations.  NaN is `none`.
-/

set_option autoImplicit false

namespace Verif.Float

open Verif.Tracker (Cfg ModalCfg State ATrack Track Frame minKey numpyTrack popE reset nanLt
  mergeTrack onsetOk lmX)

variable {K : Type} [Field K] [LinearOrder K] [IsStrictOrderedRing K] (A : Arith K)

/-- What the numerical libraries compute: `np.mean` and `np.nanmean` of an array that is not empty
(`sample/sms/mm.py:27, 113`), `coef_` and `intercept_` of `LinearRegression().fit(x, y)` for
finite `x` and `y` (`sample/sms/mm.py:123-126`).  Simplification: they do not raise. -/
structure Numerics (K : Type) where
  mean : List K → Option K
  nanmean : List (Option K) → Option K
  slope : List K → List K → Option K
  intercept : List K → List K → Option K

/-- `m` is a possible value of `np.mean`: the sum in any order and grouping, then one division. -/
def MeanF (l : List K) (m : K) : Prop :=
  ∃ s, DotF A (l.map fun x => (x, 1)) s ∧ m = A.div s (l.length : K)

variable (N : Numerics K)

/-- `ModalTracker.track_ok`, `sample/sms/mm.py:102-129`. -/
def modalTrackOkF [FloorRing K] (c : ModalCfg K) (t : ATrack K) : Bool :=
  if !trackOkF A c.toCfg t then false
  else
    let mf := N.mean t.freq
    if (match c.freqLo with | some lo => nanLt mf (some lo) | none => false) then false
    else if (match c.freqHi with | some hi => nanLt (some hi) mf | none => false) then false
    else
      let x := lmX c.reverse t.mag.length
      if nanLt (some 0) (N.slope x t.mag) then false
      else if nanLt (N.intercept x t.mag) (some c.peakThreshold) then false
      else true

/-- `np.abs(a - b)` of numbers that may be NaN. -/
def absDiffF (a b : Option K) : Option K :=
  match a, b with
  | some a, some b => some (distF A a b)
  | _, _ => none

/-- `_track_diff_avg`, `sample/sms/mm.py:18-27`. -/
def trackDiffAvgF (t u : Track K) : Except PyErr (Option K) :=
  .ok (absDiffF A (N.nanmean t.freq) (N.nanmean u.freq))

/-- `_track_diff_single`, `sample/sms/mm.py:30-40`. -/
def trackDiffSingleF (t u : Track K) : Except PyErr (Option K) :=
  match lastE t.freq with
  | .error e => .error e
  | .ok a =>
    match getE u.freq 0 with
    | .error e => .error e
    | .ok b => .ok (absDiffF A a b)

/-- `freq_diff_function`, `sample/sms/mm.py:131-144`. -/
def freqDiffFunctionF (strategy : String) :
    Except PyErr (Track K → Track K → Except PyErr (Option K)) :=
  if strategy = "single" then .ok (trackDiffSingleF A)
  else if strategy = "average" then .ok (trackDiffAvgF A N)
  else .error .keyError

/-- What `ModalTracker.deactivate` does to `tracks_`, `sample/sms/mm.py:155-170`.  The track
objects in `tracks_` are identified by their position (they are mutated in place). -/
def finishF [FloorRing K] (c : ModalCfg K) (tracks : List (Track K)) (a : ATrack K) :
    Except PyErr (List (Track K)) :=
  let t := numpyTrack a
  if modalTrackOkF A N c a then
    match freqDiffFunctionF A N c.mergeStrategy with
    | .error e => .error e
    | .ok diff =>
      match minKey nanLt
          (tracks.zipIdx.filter fun ui => decide (ui.1.start + ui.1.mag.length < t.start))
          (fun ui => diff ui.1 t) with
      | .error e => .error e
      | .ok none => .ok (tracks ++ [t])
      | .ok (some ((u, i), df)) =>
        match getE a.freq 0 with
        | .error e => .error e
        | .ok f0 =>
          if nanLt df (some (dfF A c.toCfg f0)) then .ok (tracks.set i (mergeTrack u t))
          else .ok (tracks ++ [t])
  else .ok tracks

/-- `ModalTracker.deactivate`, `sample/sms/mm.py:146-171`. -/
def modalDeactivateF [FloorRing K] (c : ModalCfg K) (s : State K) (i : Nat) :
    Except PyErr (State K) :=
  match popE s.active i with
  | .error e => .error e
  | .ok (t, rest) =>
    match finishF A N c s.tracks t with
    | .error e => .error e
    | .ok tracks => .ok { s with active := rest, tracks := tracks }

/-- `strip_n`, `sample/sms/mm.py:96-100`. -/
def stripNF [FloorRing K] (c : ModalCfg K) : Option ℤ :=
  match c.stripT with
  | none => none
  | some t => some ⌈A.mul t (A.div c.fs c.h)⌉

/-- `ModalTracker.all_tracks_`, `sample/sms/mm.py:173-187` (the base version with the overridden
`track_ok`, then the strip filter). -/
def modalAllTracksF [FloorRing K] (c : ModalCfg K) (s : State K) : List (Track K) :=
  let tracks := s.tracks ++ (s.active.filter (modalTrackOkF A N c)).map numpyTrack
  match stripNF A c with
  | none => tracks
  | some n => tracks.filter (onsetOk c.reverse s.frame n)

/-- Reset and one update per frame, `sample/sms/sm.py:318-331`, with the modal tracker. -/
def modalFitF [FloorRing K] (c : ModalCfg K) (prior : State K) (frames : List (Frame K)) :
    Except PyErr (State K) :=
  runFromF A (modalDeactivateF A N c) c.toCfg frames (reset prior)

end Verif.Float
