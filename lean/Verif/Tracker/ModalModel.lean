import Verif.Tracker.Model

/-!
# Model of the modal tracker

Models `sample/sms/mm.py`, lines 18-187 (`_track_diff_avg`, `_track_diff_single`,
`ModalTracker`).  `LinearRegression` (scikit-learn) is replaced by the ordinary least-squares
line in closed form; NaN is `none`.
-/

set_option autoImplicit false

namespace Verif.Tracker

variable {K : Type*} [Field K] [LinearOrder K]

/-- Parameters of `ModalTracker`, `sample/sms/mm.py:69-94`.  `frequency_bounds` is the pair
`(freqLo, freqHi)`. -/
structure ModalCfg (K : Type*) extends Cfg K where
  freqLo : Option K
  freqHi : Option K
  peakThreshold : K
  reverse : Bool
  mergeStrategy : String
  stripT : Option K

/-- `np.mean` of a NaN-free array (callers guarantee it is not empty). -/
def mean (l : List K) : K := l.sum / (l.length : K)

/-- `np.nanmean`, NaN (`none`) if there is no number. -/
def nanmean (l : List (Option K)) : Option K :=
  match l.filterMap id with
  | [] => none
  | a :: as => some (mean (a :: as))

/-- Slope of the least-squares line (`LinearRegression().fit(x, y).coef_`). -/
def olsSlope (xs ys : List K) : K :=
  ((xs.zip ys).map fun p => (p.1 - mean xs) * (p.2 - mean ys)).sum /
    (xs.map fun x => (x - mean xs) ^ 2).sum

/-- Intercept of the least-squares line (`LinearRegression().fit(x, y).intercept_`). -/
def olsIntercept (xs ys : List K) : K := mean ys - olsSlope xs ys * mean xs

/-- `lm_x` in `sample/sms/mm.py:119-121`. -/
def lmX (reverse : Bool) (n : Nat) : List K :=
  let x : List K := (List.range n).map (fun i : Nat => (i : K))
  if reverse then x.reverse else x

/-- `ModalTracker.track_ok`, `sample/sms/mm.py:102-129`. -/
def modalTrackOk [FloorRing K] (c : ModalCfg K) (t : ATrack K) : Bool :=
  if !trackOk c.toCfg t then false
  else
    let mf := mean t.freq
    if (match c.freqLo with | some lo => decide (mf < lo) | none => false) then false
    else if (match c.freqHi with | some hi => decide (mf > hi) | none => false) then false
    else
      let x := lmX c.reverse t.mag.length
      if decide (olsSlope x t.mag > 0) then false
      else if decide (olsIntercept x t.mag < c.peakThreshold) then false
      else true

/-- `_track_diff_avg`, `sample/sms/mm.py:18-27`. -/
def trackDiffAvg (t u : Track K) : Except PyErr (Option K) :=
  match nanmean t.freq, nanmean u.freq with
  | some a, some b => .ok (some |a - b|)
  | _, _ => .ok none

/-- `_track_diff_single`, `sample/sms/mm.py:30-40`. -/
def trackDiffSingle (t u : Track K) : Except PyErr (Option K) :=
  match lastE t.freq with
  | .error e => .error e
  | .ok a =>
    match getE u.freq 0 with
    | .error e => .error e
    | .ok b =>
      match a, b with
      | some a, some b => .ok (some |a - b|)
      | _, _ => .ok none

/-- `freq_diff_function`, `sample/sms/mm.py:131-144`. -/
def freqDiffFunction (strategy : String) :
    Except PyErr (Track K → Track K → Except PyErr (Option K)) :=
  if strategy = "single" then .ok trackDiffSingle
  else if strategy = "average" then .ok trackDiffAvg
  else .error .keyError

/-- `<` on numbers that may be NaN: false if one of them is NaN. -/
def nanLt (x y : Option K) : Bool :=
  match x, y with
  | some a, some b => decide (a < b)
  | _, _ => false

/-- Merging of `t` into `u`, `sample/sms/mm.py:165-168`.  `np.full` with a negative size would
raise; the filter in `finish` excludes it. -/
def mergeTrack (u t : Track K) : Track K :=
  let pad : List (Option K) := List.replicate (t.start - u.start - u.mag.length) none
  ⟨u.start, u.freq ++ pad ++ t.freq, u.mag ++ pad ++ t.mag, u.phase ++ pad ++ t.phase⟩

/-- What `ModalTracker.deactivate` does to `tracks_`, `sample/sms/mm.py:155-170`.  The track
objects in `tracks_` are identified by their position (they are mutated in place). -/
def finish [FloorRing K] (c : ModalCfg K) (tracks : List (Track K)) (a : ATrack K) :
    Except PyErr (List (Track K)) :=
  let t := numpyTrack a
  if modalTrackOk c a then
    match freqDiffFunction c.mergeStrategy with
    | .error e => .error e
    | .ok diff =>
      match minKey nanLt
          (tracks.zipIdx.filter fun ui => decide (ui.1.start + ui.1.mag.length < t.start))
          (fun ui => diff ui.1 t) with
      | .error e => .error e
      | .ok none => .ok (tracks ++ [t])
      | .ok (some ((u, i), df)) =>
        match getE a.freq 0 with
        | .error e => .error e
        | .ok f0 =>
          if nanLt df (some (c.df f0)) then .ok (tracks.set i (mergeTrack u t))
          else .ok (tracks ++ [t])
  else .ok tracks

/-- `ModalTracker.deactivate`, `sample/sms/mm.py:146-171`. -/
def modalDeactivate [FloorRing K] (c : ModalCfg K) (s : State K) (i : Nat) :
    Except PyErr (State K) :=
  match popE s.active i with
  | .error e => .error e
  | .ok (t, rest) =>
    match finish c s.tracks t with
    | .error e => .error e
    | .ok tracks => .ok { s with active := rest, tracks := tracks }

/-- `strip_n`, `sample/sms/mm.py:96-100`. -/
def ModalCfg.stripN [FloorRing K] (c : ModalCfg K) : Option ℤ :=
  match c.stripT with
  | none => none
  | some t => some ⌈t * c.frameRate⌉

/-- `onset_ok`, `sample/sms/mm.py:181-185`. -/
def onsetOk (reverse : Bool) (frame : Nat) (stripN : ℤ) (t : Track K) : Bool :=
  let o : ℤ := t.start
  let o : ℤ := if reverse then (frame : ℤ) - (o + t.mag.length) else o
  decide (o ≤ stripN)

/-- `ModalTracker.all_tracks_`, `sample/sms/mm.py:173-187` (the base version with the overridden
`track_ok`, then the strip filter). -/
def modalAllTracks [FloorRing K] (c : ModalCfg K) (s : State K) : List (Track K) :=
  let tracks := s.tracks ++ (s.active.filter (modalTrackOk c)).map numpyTrack
  match c.stripN with
  | none => tracks
  | some n => tracks.filter (onsetOk c.reverse s.frame n)

end Verif.Tracker
