import Verif.Float.Basic
import Verif.Tracker.Model

/-!
# The sine tracker in floating point (`sample/sms/sm.py:39-197`)

Frequencies, the thresholds and the minimum length are computed numbers; magnitudes are only
compared, so they need no rounding.  States, the deactivation loop and the activation loop compute
nothing with frequencies and are those of `Verif.Tracker`.
-/

set_option autoImplicit false

namespace Verif.Float

open Verif.Tracker (Cfg State ATrack Peak Frame LoopSt minKey numpyTrack popE deactivateLoop
  activateLoop reset)

variable {K : Type} [Field K] [LinearOrder K] [IsStrictOrderedRing K] (A : Arith K)

/-- `np.abs(self._active_tracks[i]["freq"][-1] - pfreq[p])`, `sample/sms/sm.py:169-170`. -/
def distF (f p : K) : K := |A.sub f p|

/-- `df`, `sample/sms/sm.py:103-111`. -/
def dfF (c : Cfg K) (f : K) : K := A.add c.freqDevOffset (A.mul c.freqDevSlope f)

/-- `min_sine_len`, `sample/sms/sm.py:70-73, 90-93`. -/
def minSineLenF [FloorRing K] (c : Cfg K) : ℤ := max 2 ⌈A.mul c.minSineDur (A.div c.fs c.h)⌉

/-- `SineTracker.track_ok`, `sample/sms/sm.py:124-132`. -/
def trackOkF [FloorRing K] (c : Cfg K) (t : ATrack K) : Bool :=
  decide (minSineLenF A c ≤ (t.freq.length : ℤ))

/-- `SineTracker.deactivate`, `sample/sms/sm.py:134-146`. -/
def deactivateF [FloorRing K] (c : Cfg K) (s : State K) (i : Nat) : Except PyErr (State K) :=
  match popE s.active i with
  | .error e => .error e
  | .ok (t, rest) =>
    if trackOkF A c t then .ok { s with active := rest, tracks := s.tracks ++ [numpyTrack t] }
    else .ok { s with active := rest }

/-- The key function passed to `min_key`, `sample/sms/sm.py:169-170`. -/
def lastDistF (active : List (ATrack K)) (pk : Peak K) (i : Nat) : Except PyErr K :=
  match getE active i with
  | .error e => .error e
  | .ok t =>
    match lastE t.freq with
    | .error e => .error e
    | .ok f => .ok (distF A f pk.freq)

/-- Body of the matching loop after the `break` test, `sample/sms/sm.py:166-178`. -/
def continueOneF (c : Cfg K) (peaks : List (Peak K)) (p : Nat) (l : LoopSt K) :
    Except PyErr (LoopSt K) :=
  match getE peaks p with
  | .error e => .error e
  | .ok pk =>
    match minKey (fun x y => decide (x < y))
        ((List.range l.active.length).filter (fun i => l.freeTrack.getD i false))
        (lastDistF A l.active pk) with
    | .error e => .error e
    | .ok none => .error .typeError
    | .ok (some (ti, d)) =>
      if d < dfF A c pk.freq then
        match getE l.active ti with
        | .error e => .error e
        | .ok t =>
          .ok ⟨l.active.set ti (t.push pk), l.freeTrack.set ti false, l.freePeak.set p false⟩
      else .ok l

/-- The matching loop with its `break`, `sample/sms/sm.py:163-178`. -/
def continueLoopF (c : Cfg K) (peaks : List (Peak K)) :
    List Nat → LoopSt K → Except PyErr (LoopSt K)
  | [], l => .ok l
  | p :: ps, l =>
    if l.freeTrack.any id then
      match continueOneF A c peaks p l with
      | .error e => .error e
      | .ok l' => continueLoopF c peaks ps l'
    else .ok l

/-- `SineTracker.__call__`, `sample/sms/sm.py:148-197`. -/
def callF (deact : State K → Nat → Except PyErr (State K)) (c : Cfg K) (order : List Nat)
    (peaks : List (Peak K)) (s : State K) : Except PyErr (State K) :=
  match continueLoopF A c peaks order
      ⟨s.active, List.replicate s.active.length true, List.replicate peaks.length true⟩ with
  | .error e => .error e
  | .ok l =>
    match deactivateLoop deact
        ((List.range l.active.length).reverse.filter (fun i => l.freeTrack.getD i false))
        { s with active := l.active } with
    | .error e => .error e
    | .ok s₁ =>
      match activateLoop c s₁.frame peaks
          ((List.range peaks.length).filter (fun p => l.freePeak.getD p false)) s₁.active with
      | .error e => .error e
      | .ok act => .ok { s₁ with active := act, frame := s₁.frame + 1 }

/-- A sequence of updates, the loop body of `sample/sms/sm.py:323-328`. -/
def runFromF (deact : State K → Nat → Except PyErr (State K)) (c : Cfg K) :
    List (Frame K) → State K → Except PyErr (State K)
  | [], s => .ok s
  | f :: fs, s =>
    match callF A deact c f.order f.peaks s with
    | .error e => .error e
    | .ok s' => runFromF deact c fs s'

/-- Reset and one update per frame, `sample/sms/sm.py:318-331`, with the plain tracker. -/
def trackerFitF [FloorRing K] (c : Cfg K) (prior : State K) (frames : List (Frame K)) :
    Except PyErr (State K) :=
  runFromF A (deactivateF A c) c frames (reset prior)

end Verif.Float
