import Verif.Tracker.Spec

/-!
# Specification of the sine tracker with a given threshold

Exact distances; only the data types of the tracker and the specification of C01-C07 are used.
-/

set_option autoImplicit false

namespace Verif.Float

open Verif.Tracker

variable {K : Type} [Field K] [LinearOrder K]

/-- As `Verif.Tracker.Greedy`, but for any threshold function `thr`, and the statements about
competing tracks only for peaks `p` with `2 * thr p ≤ p`. -/
structure GreedyF (thr : K → K) (T : List (ATrack K)) (peaks : List (Peak K))
    (m : List (Option Nat)) : Prop where
  /-- one entry per track -/
  len : m.length = T.length
  /-- entries are peak indices -/
  valid : ∀ p, some p ∈ m → p < peaks.length
  /-- a peak goes to at most one track -/
  inj : ∀ (i j p : Nat), m[i]? = some (some p) → m[j]? = some (some p) → i = j
  /-- matched pairs are closer than the threshold -/
  near : ∀ (i p : Nat) (t : ATrack K) (pk : Peak K) (f : K), m[i]? = some (some p) →
    T[i]? = some t → peaks[p]? = some pk → t.freq.getLast? = some f →
    |f - pk.freq| < thr pk.freq
  /-- a nearer track was given to a peak at least as loud -/
  nearest : ∀ (i j p : Nat) (t u : ATrack K) (pk : Peak K) (f g : K), m[i]? = some (some p) →
    T[i]? = some t → T[j]? = some u → peaks[p]? = some pk → t.freq.getLast? = some f →
    u.freq.getLast? = some g → 2 * thr pk.freq ≤ pk.freq →
    (|g - pk.freq| < |f - pk.freq| ∨ (|g - pk.freq| = |f - pk.freq| ∧ j < i)) →
    ∃ q qk, m[j]? = some (some q) ∧ peaks[q]? = some qk ∧ pk.mag ≤ qk.mag
  /-- ties between equally loud peaks are resolved in one order -/
  ordered : ∃ rank : Nat → Nat, ∀ (i j p : Nat) (t u : ATrack K) (pk : Peak K) (f g : K),
    m[i]? = some (some p) → T[i]? = some t → T[j]? = some u →
    peaks[p]? = some pk → t.freq.getLast? = some f → u.freq.getLast? = some g →
    2 * thr pk.freq ≤ pk.freq →
    (|g - pk.freq| < |f - pk.freq| ∨ (|g - pk.freq| = |f - pk.freq| ∧ j < i)) →
    ∃ q, m[j]? = some (some q) ∧ rank q < rank p
  /-- an unmatched peak is below the threshold only for tracks given to peaks at least as loud -/
  loudest : ∀ (p j : Nat) (u : ATrack K) (pk : Peak K) (g : K), some p ∉ m →
    peaks[p]? = some pk → T[j]? = some u → u.freq.getLast? = some g →
    2 * thr pk.freq ≤ pk.freq → |g - pk.freq| < thr pk.freq →
    ∃ q qk, m[j]? = some (some q) ∧ peaks[q]? = some qk ∧ pk.mag ≤ qk.mag

/-- One update with the matching `m`; `ok` tells which dropped tracks are kept. -/
structure StepF (ok : ATrack K → Bool) (thr : K → K) (maxN : Nat) (peaks : List (Peak K))
    (m : List (Option Nat)) (s s' : State K) : Prop where
  greedy : GreedyF thr s.active peaks m
  active : s'.active = continued s.active peaks m ++
    ((unused peaks m).take (maxN - (continued s.active peaks m).length)).map (newborn s.frame)
  tracks : s'.tracks = s.tracks ++ ((dropped s.active m).reverse.filter ok).map numpyTrack
  frame : s'.frame = s.frame + 1

end Verif.Float
