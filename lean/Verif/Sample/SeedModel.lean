import Verif.Sample.SynthModel

/-!
# Random phases (`sample/sample.py:316-378`)

`_random_phases` with its keyword arguments, and how they get there from `additive_synth` and
`SAMPLE.predict`.
-/

set_option autoImplicit false

namespace Verif.Sample

/-- A generator of `np.random` (third-party): the state that belongs to a seed, and one draw, a number
between 0 and 1 and the next state. -/
structure RngLib (σ : Type) where
  seeded : Nat → σ
  unit : σ → ℝ
  next : σ → σ

/-- `rng.uniform(lo, hi, n)`: one draw for each of the values (NumPy: `lo + (hi - lo) * random()`). -/
def RngLib.uniform {σ : Type} (L : RngLib σ) (lo hi : ℝ) : Nat → σ → List ℝ × σ
  | 0, s => ([], s)
  | n + 1, s =>
    let r := L.uniform lo hi n (L.next s)
    ((lo + (hi - lo) * L.unit s) :: r.1, r.2)

/-- The keyword arguments for `_random_phases`: `seed` and `rng` (`none`: not given, or `None`), and
the names of other arguments.  Simplification: the seed is an integer. -/
structure PhaseKw (σ : Type) where
  seed : Option Int
  rng : Option σ
  other : List String

/-- `_random_phases(n, **kw)`, `sample/sample.py:316-330`: the phases, and the state of the generator
of the caller afterwards.  `entropy` is the state of `default_rng(None)`, different at each call; a
negative seed is a `ValueError` of NumPy; an unknown keyword argument is a `TypeError`. -/
noncomputable def randomPhases {σ : Type} (L : RngLib σ) (entropy : σ) (n : Nat) (kw : PhaseKw σ) :
    Except PyErr (List ℝ × Option σ) :=
  if kw.other ≠ [] then .error .typeError
  else
    match kw.rng with
    | some s =>
      let r := L.uniform 0 (2 * Real.pi) n s
      .ok (r.1, some r.2)
    | none =>
      match kw.seed with
      | none => .ok ((L.uniform 0 (2 * Real.pi) n entropy).1, none)
      | some k =>
        if k < 0 then .error .valueError
        else .ok ((L.uniform 0 (2 * Real.pi) n (L.seeded k.toNat)).1, none)

/-- `additive_synth(x, freqs, decays, amps, phases, analytic, **kw)`, `sample/sample.py:338-378`, and
the state of the generator of the caller afterwards: the keyword arguments are only used for random
phases, and the option is looked up first (366-367). -/
noncomputable def additiveSynthKw {σ : Type} (L : RngLib σ) (entropy : σ)
    (x freqs decays amps : List ℝ) (phases : Phases) (analytic : Bool) (kw : PhaseKw σ) :
    Except PyErr Audio × Option σ :=
  match phases with
  | .str s =>
    if s = "random" then
      match randomPhases L entropy freqs.length kw with
      | .error e => (.error e, kw.rng)
      | .ok (p, s') => (additiveSynth (fun _ => p) x freqs decays amps (.str s) analytic, s')
    else (.error .valueError, kw.rng)
  | p => (additiveSynth (fun _ => []) x freqs decays amps p analytic, kw.rng)

/-- `SAMPLE.predict(x, n_modes, order, reverse, phases=…, analytic=…, **kw)`,
`sample/sample.py:282-313`, and the state of the generator of the caller afterwards. -/
noncomputable def Fitted.predictKw {σ : Type} (L : RngLib σ) (entropy : σ)
    (argsort : List ℝ → List Nat) (s : Fitted ℝ) (x : List ℝ) (nModes : Option Int)
    (order : String) (reverse : Bool) (phases : Phases) (analytic : Bool) (kw : PhaseKw σ) :
    Except PyErr Audio × Option σ :=
  match phases with
  | .arr l =>
    match s.predictArgs argsort nModes order reverse (some l) with
    | .error e => (.error e, kw.rng)
    | .ok (f, d, a, ph) => additiveSynthKw L entropy x f d a (.arr (ph.getD [])) analytic kw
  | p =>
    match s.predictArgs argsort nModes order reverse none with
    | .error e => (.error e, kw.rng)
    | .ok (f, d, a, _) => additiveSynthKw L entropy x f d a p analytic kw

end Verif.Sample
