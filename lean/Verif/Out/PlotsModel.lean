import Verif.Sample.Model

/-!
# What the plots show (`sample/plots.py:24-138,162-247`, `sample/ipython.py:149-200`)

Positions and values of the drawn points; drawing itself is not modelled.
-/

set_option autoImplicit false

namespace Verif.Plots

open Verif.Tracker Verif.Sample

variable {K : Type*} [Field K] [LinearOrder K]

/-! ## Tracks -/

/-- What `sine_tracking_2d` and `sine_tracking_3d` read from the sinusoidal model; `saved` is the number of
frames in the intermediate results, if they are saved. -/
structure Plotted (K : Type*) where
  fs : K
  h : K
  reverse : Bool
  saved : Option Nat
  tracks : List (Track K)

/-- The time of a frame, `sample/plots.py:56,90`. -/
def plotTime (m : Plotted K) (start i : Nat) : K := ((start : K) + (i : K)) * m.h / m.fs

/-- Python's `max` of the values of an iterator; `ValueError` if there are none. -/
def maxE : List K → Except PyErr K
  | [] => .error .valueError
  | x :: xs => .ok (xs.foldl max x)

/-- `tmax`, `sample/plots.py:47-54`. -/
def tmax (m : Plotted K) : Except PyErr K :=
  if m.reverse then
    match m.saved with
    | some n => .ok ((n : K) * m.h / m.fs)
    | none => maxE (m.tracks.map fun t => ((t.start : K) + (t.freq.length : K)) * m.h / m.fs)
  else .ok 0

/-- The times of the points of the tracks in `sine_tracking_2d`, `sample/plots.py:47-61`. -/
def times2d (m : Plotted K) : Except PyErr (List (List K)) :=
  match tmax m with
  | .error e => .error e
  | .ok tm =>
    .ok (m.tracks.map fun t => (List.range t.freq.length).map fun i =>
      if m.reverse then tm - plotTime m t.start i else plotTime m t.start i)

/-- The times of the points of the tracks in `sine_tracking_3d`, `sample/plots.py:89-91`. -/
def times3d (m : Plotted K) : List (List K) :=
  m.tracks.map fun t => (List.range t.freq.length).map fun i => plotTime m t.start i

/-- The style of a track, `sample/plots.py:24-29,59-61,91`: dashed for a beat.  `decisions` are the saved decisions of a
model with a beat decisor, `none` if there are none. -/
def dashed (decisions : Option (List Bool)) (i : Nat) : Except PyErr Bool :=
  match decisions with
  | none => .ok false
  | some ds => getE ds i

/-! ## Time-frequency plots -/

/-- The ratio of the units of the axes, `sample/plots.py:124-134`. -/
def tfAspect (xlim ylim : K × K) (ratio : K) : K := (xlim.2 - xlim.1) / (ratio * (ylim.2 - ylim.1))

/-- The limits of the axes, `sample/plots.py:124-125`. -/
def tfLim (own : Option (K × K)) (matrix : K × K) : K × K := own.getD matrix

/-- What is drawn: where the matrix is, the ratio of the units, the limits of the axes, and the size of the figure
if it is changed (in multiples of `width`). -/
structure TfPlot (K : Type*) where
  extent : (K × K) × (K × K)
  aspect : K
  xlim : K × K
  ylim : K × K
  size : Option (K × K)

/-- `tf_plot`, `sample/plots.py:100-138`; `hasAx`: if axes are given. -/
def tfPlot (tlim flim : K × K) (xlim ylim : Option (K × K)) (hasAx : Bool) (ratio width : K) : TfPlot K where
  extent := (tlim, flim)
  aspect := tfAspect (tfLim xlim tlim) (tfLim ylim flim) ratio
  xlim := tfLim xlim tlim
  ylim := tfLim ylim flim
  size := if hasAx then none else some (ratio * width, 1 * width)

/-! ## Resynthesis -/

/-- The sample rate, `sample/plots.py:208-209`. -/
def resynthFs (fs : Option K) (modelFs : List K) : K :=
  match fs, modelFs with
  | some f, _ => f
  | none, [] => 44100
  | none, f :: l => l.foldl max f

/-- The time axis, `sample/plots.py:232`. -/
def resynthTimes (fs : K) (n : Nat) : List K := (List.range n).map fun (i : Nat) => (i : K) / fs

/-- The signals and their labels, `sample/plots.py:234-235`; a model is given by its label and by what it predicts. -/
def resynthWavs (original : Option String) (x : List K) (times : List K)
    (models : List (String × (List K → List K))) : List (String × List K) :=
  (match original with
    | some k => [(k, x)]
    | none => []) ++ models.map fun m => (m.1, m.2 times)

/-- What is drawn and what `foreach` is called with: axes, label, signal, `sample/plots.py:236-244`. -/
def resynthCalls (original : Option String) (x : List K) (times : List K)
    (models : List (String × (List K → List K))) : List (Nat × Nat × String × List K) :=
  (resynthWavs original x times models).zipIdx.map fun w => (w.2 + 1, w.2, w.1.1, w.1.2)

/-- The number of the axes, `sample/plots.py:218-220`: one for the signals and one below for each column. -/
def resynthAxes (original : Option String) (nModels : Nat) : Nat :=
  1 + (nModels + if original.isSome then 1 else 0)

/-! ## Labels and players -/

/-- `LabelAndPlayForeach._label`, `sample/ipython.py:162-174`: the text of the heading. -/
def labelText (i : Option Nat) (k : Option String) : Option String :=
  match i, k with
  | none, none => none
  | none, some k => some k
  | some i, none => some (toString (i + 1))
  | some i, some k => if k = "" then some (toString (i + 1)) else some (toString (i + 1) ++ " - " ++ k)

/-- `LabelAndPlayForeach._audio`, `sample/ipython.py:176-182`: the samples that are played. -/
def played (normalize : Bool) (y : List K) : List K :=
  if normalize then y else y.map fun v => min (max v (-1)) 1

end Verif.Plots
