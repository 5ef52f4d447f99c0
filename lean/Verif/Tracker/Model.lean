import Mathlib.Algebra.Order.Field.Basic
import Mathlib.Algebra.Order.Floor.Ring
import Verif.Py

/-!
# Model of the sine tracker

Models `sample/sms/sm.py`, lines 20-197 (`min_key`, `SineTracker`).
Numbers live in an ordered field `K` (floating-point rounding is not modelled).
-/

set_option autoImplicit false

namespace Verif.Tracker

variable {K : Type*} [Field K] [LinearOrder K]

/-- `min_key`, `sample/sms/sm.py:20-36`: the loop over the remaining items, with the current
`(i_, x_)` as an option (`None, None` at the start).  `key` may raise.  The comparison `x < x_`
is a parameter, because it is used with plain numbers (tracker) and with numbers that may be
NaN (merging). -/
def minKeyLoop {α V : Type*} (lt : V → V → Bool) (key : α → Except PyErr V) :
    List α → Option (α × V) → Except PyErr (Option (α × V))
  | [], acc => .ok acc
  | i :: it, acc =>
    match key i with
    | .error e => .error e
    | .ok x =>
      match acc with
      | none => minKeyLoop lt key it (some (i, x))
      | some (i', x') =>
        if lt x x' then minKeyLoop lt key it (some (i, x))
        else minKeyLoop lt key it (some (i', x'))

/-- `min_key`, `sample/sms/sm.py:20-36`. -/
def minKey {α V : Type*} (lt : V → V → Bool) (it : List α) (key : α → Except PyErr V) :
    Except PyErr (Option (α × V)) :=
  minKeyLoop lt key it none

/-- One detected peak: an entry of `pfreq`, `pmag`, `pph` (`sample/sms/sm.py:148-157`).
Simplification: the three arrays, always of equal size in the code
(`sample/sms/dsp.py:63-90`), are one list of triples. -/
@[ext] structure Peak (K : Type*) where
  freq : K
  mag : K
  phase : K
  deriving DecidableEq, Repr

/-- An active track, the dict made in `sample/sms/sm.py:189-194`; the three lists are kept
separate as in the code. -/
@[ext] structure ATrack (K : Type*) where
  start : Nat
  freq : List K
  mag : List K
  phase : List K
  deriving DecidableEq, Repr

/-- A finished track (dict of NumPy arrays, `sample/sms/sm.py:113-122`); `none` is NaN. -/
@[ext] structure Track (K : Type*) where
  start : Nat
  freq : List (Option K)
  mag : List (Option K)
  phase : List (Option K)
  deriving DecidableEq, Repr

/-- Parameters of `SineTracker`, `sample/sms/sm.py:54-68`.  Simplification: `max_n_sines` is a
non-negative integer; `fs`, `h` are field elements. -/
structure Cfg (K : Type*) where
  fs : K
  h : K
  maxNSines : Nat
  minSineDur : K
  freqDevOffset : K
  freqDevSlope : K

/-- Tracker state, `sample/sms/sm.py:75-83`. -/
structure State (K : Type*) where
  tracks : List (Track K)
  active : List (ATrack K)
  frame : Nat
  deriving DecidableEq, Repr

/-- `reset`, `sample/sms/sm.py:75-83` (the state before is irrelevant: all three fields are
assigned). -/
def reset (_prior : State K) : State K := ⟨[], [], 0⟩

/-- `frame_rate`, `sample/sms/sm.py:70-73`. -/
def Cfg.frameRate (c : Cfg K) : K := c.fs / c.h

/-- `min_sine_len`, `sample/sms/sm.py:90-93`. -/
def Cfg.minSineLen [FloorRing K] (c : Cfg K) : ℤ := max 2 ⌈c.minSineDur * c.frameRate⌉

/-- `df`, `sample/sms/sm.py:103-111`. -/
def Cfg.df (c : Cfg K) (f : K) : K := c.freqDevOffset + c.freqDevSlope * f

/-- `numpy_track`, `sample/sms/sm.py:113-122`. -/
def numpyTrack (t : ATrack K) : Track K :=
  ⟨t.start, t.freq.map some, t.mag.map some, t.phase.map some⟩

/-- `SineTracker.track_ok`, `sample/sms/sm.py:124-132`. The track is the (NaN-free) track being
finished. -/
def trackOk [FloorRing K] (c : Cfg K) (t : ATrack K) : Bool :=
  decide (c.minSineLen ≤ (t.freq.length : ℤ))

/-- `self._active_tracks.pop(track_index)`: the removed entry and the rest, or `IndexError`. -/
def popE {α : Type*} (l : List α) (i : Nat) : Except PyErr (α × List α) :=
  match l[i]? with
  | some a => .ok (a, l.eraseIdx i)
  | none => .error .indexError

/-- `SineTracker.deactivate`, `sample/sms/sm.py:134-146`. -/
def deactivate [FloorRing K] (c : Cfg K) (s : State K) (i : Nat) : Except PyErr (State K) :=
  match popE s.active i with
  | .error e => .error e
  | .ok (t, rest) =>
    if trackOk c t then .ok { s with active := rest, tracks := s.tracks ++ [numpyTrack t] }
    else .ok { s with active := rest }

/-- Append a peak to the three lists of a track, `sample/sms/sm.py:174-176`. -/
def ATrack.push (t : ATrack K) (p : Peak K) : ATrack K :=
  { t with freq := t.freq ++ [p.freq], mag := t.mag ++ [p.mag], phase := t.phase ++ [p.phase] }

/-- Local variables of the matching loop: the (mutated) active tracks, `free_track`,
`free_peak`, `sample/sms/sm.py:158-160`. -/
structure LoopSt (K : Type*) where
  active : List (ATrack K)
  freeTrack : List Bool
  freePeak : List Bool

/-- The key function passed to `min_key`, `sample/sms/sm.py:169-170`: distance of the last
frequency of track `i` from the peak. -/
def lastDist (active : List (ATrack K)) (pk : Peak K) (i : Nat) : Except PyErr K :=
  match getE active i with
  | .error e => .error e
  | .ok t =>
    match lastE t.freq with
    | .error e => .error e
    | .ok f => .ok |f - pk.freq|

/-- Body of the matching loop after the `break` test, `sample/sms/sm.py:166-178`.
`None < float` would raise `TypeError`. -/
def continueOne (c : Cfg K) (peaks : List (Peak K)) (p : Nat) (l : LoopSt K) :
    Except PyErr (LoopSt K) :=
  match getE peaks p with
  | .error e => .error e
  | .ok pk =>
    match minKey (fun x y => decide (x < y))
        ((List.range l.active.length).filter (fun i => l.freeTrack.getD i false))
        (lastDist l.active pk) with
    | .error e => .error e
    | .ok none => .error .typeError
    | .ok (some (ti, d)) =>
      if d < c.df pk.freq then
        match getE l.active ti with
        | .error e => .error e
        | .ok t =>
          .ok ⟨l.active.set ti (t.push pk), l.freeTrack.set ti false, l.freePeak.set p false⟩
      else .ok l

/-- The matching loop with its `break`, `sample/sms/sm.py:163-178`. -/
def continueLoop (c : Cfg K) (peaks : List (Peak K)) :
    List Nat → LoopSt K → Except PyErr (LoopSt K)
  | [], l => .ok l
  | p :: ps, l =>
    if l.freeTrack.any id then
      match continueOne c peaks p l with
      | .error e => .error e
      | .ok l' => continueLoop c peaks ps l'
    else .ok l

/-- The deactivation loop, `sample/sms/sm.py:181-183`; `deact` is the (overridable) method. -/
def deactivateLoop (deact : State K → Nat → Except PyErr (State K)) :
    List Nat → State K → Except PyErr (State K)
  | [], s => .ok s
  | i :: is, s =>
    match deact s i with
    | .error e => .error e
    | .ok s' => deactivateLoop deact is s'

/-- The activation loop with its `break`, `sample/sms/sm.py:186-194`. -/
def activateLoop (c : Cfg K) (frame : Nat) (peaks : List (Peak K)) :
    List Nat → List (ATrack K) → Except PyErr (List (ATrack K))
  | [], act => .ok act
  | p :: ps, act =>
    if c.maxNSines ≤ act.length then .ok act
    else
      match getE peaks p with
      | .error e => .error e
      | .ok pk => activateLoop c frame peaks ps (act ++ [⟨frame, [pk.freq], [pk.mag], [pk.phase]⟩])

/-- `SineTracker.__call__`, `sample/sms/sm.py:148-197`.  `order` is the result of
`np.argsort(-pmag)` (line 158), constrained only by `IsArgsort`. -/
def call (deact : State K → Nat → Except PyErr (State K)) (c : Cfg K) (order : List Nat)
    (peaks : List (Peak K)) (s : State K) : Except PyErr (State K) :=
  match continueLoop c peaks order
      ⟨s.active, List.replicate s.active.length true, List.replicate peaks.length true⟩ with
  | .error e => .error e
  | .ok l =>
    match deactivateLoop deact
        ((List.range l.active.length).reverse.filter (fun i => l.freeTrack.getD i false))
        { s with active := l.active } with
    | .error e => .error e
    | .ok s₁ =>
      match activateLoop c s₁.frame peaks
          ((List.range peaks.length).filter (fun p => l.freePeak.getD p false)) s₁.active with
      | .error e => .error e
      | .ok act => .ok { s₁ with active := act, frame := s₁.frame + 1 }

/-- What is known about `np.argsort(-pmag)` (default sort, not stable): a permutation of all peak
indices in order of non-increasing magnitude. -/
def IsArgsort (peaks : List (Peak K)) (order : List Nat) : Prop :=
  order.Perm (List.range peaks.length) ∧
    order.Pairwise fun i j => ∀ (p q : Peak K), peaks[i]? = some p → peaks[j]? = some q → q.mag ≤ p.mag

/-- One frame given to the tracker: the peaks and the order chosen by the sort. -/
structure Frame (K : Type*) where
  peaks : List (Peak K)
  order : List Nat

/-- The sort order of a frame is a valid one. -/
def Frame.Valid (f : Frame K) : Prop := IsArgsort f.peaks f.order

/-- A sequence of tracker updates (the loop body of `sample/sms/sm.py:323-328`). -/
def runFrom (deact : State K → Nat → Except PyErr (State K)) (c : Cfg K) :
    List (Frame K) → State K → Except PyErr (State K)
  | [], s => .ok s
  | f :: fs, s =>
    match call deact c f.order f.peaks s with
    | .error e => .error e
    | .ok s' => runFrom deact c fs s'

/-- The tracking part of `SinusoidalModel.fit`, `sample/sms/sm.py:318-331`: reset, then one update
per frame.  `prior` is the state left by earlier use of the object. -/
def trackerFit (deact : State K → Nat → Except PyErr (State K)) (c : Cfg K) (prior : State K)
    (frames : List (Frame K)) : Except PyErr (State K) :=
  runFrom deact c frames (reset prior)

/-- `all_tracks_`, `sample/sms/sm.py:95-101`. -/
def allTracks [FloorRing K] (c : Cfg K) (s : State K) : List (Track K) :=
  s.tracks ++ (s.active.filter (trackOk c)).map numpyTrack

end Verif.Tracker
