import Verif.Tracker.Model
import Verif.Np

/-!
# Model of `SAMPLE` (`sample/sample.py`), the part that needs no transcendental functions

`modal_energy` (19-36), `_preprocess_track` (107-126), cleaning of the parameter matrix in `fit`
(188-200), `mode_argsort_` (234-252), `sdt_params_` (254-280), the selection of modes in `predict`
(282-313).
-/

set_option autoImplicit false

namespace Verif.Sample

open Verif.Tracker

variable {K : Type*} [Field K] [LinearOrder K]

/-- `v[mask]` with a boolean array: `IndexError` if the sizes differ. -/
def mask {α : Type*} (v : List α) (m : List Bool) : Except PyErr (List α) :=
  if v.length = m.length then .ok ((v.zip m).filterMap fun e => if e.2 then some e.1 else none)
  else .error .indexError

/-- `v if np.ndim(np.squeeze(v)) != 1 else v[notnans]` for a 1-d array,
`sample/sample.py:117-120`: an array of one element is squeezed to a scalar and is not filtered. -/
def filterItem {α : Type*} (v : List α) (m : List Bool) : Except PyErr (List α) :=
  if v.length = 1 then .ok v else mask v m

/-- What `_preprocess_track` reads from the sinusoidal model. -/
structure Analysis (K : Type*) where
  /-- `self.sinusoidal.frame_rate` is `fs / h` -/
  fs : K
  h : K
  /-- `self.sinusoidal.w.size` -/
  wsize : Nat
  padded : Bool
  /-- `getattr(self.sinusoidal.tracker, "reverse", False)` -/
  reverse : Bool
  /-- `utils.dsp.DOUBLE_DB` -/
  doubleDb : K

/-- The result of `_preprocess_track`: time axis and filtered track. -/
structure PreTrack (K : Type*) where
  time : List K
  freq : List (Option K)
  mag : List (Option K)
  phase : List (Option K)
  deriving DecidableEq

/-- The time of the frame with index `i` in the track, `sample/sample.py:112-115,121-123`. -/
def frameTime (c : Analysis K) (xsize start i : Nat) : K :=
  let t := ((i : K) + (start : K)) / (c.fs / c.h)
  let t := if !c.padded then t + 1 / 2 * (c.wsize : K) / c.fs else t
  if c.reverse then (xsize : K) / c.fs - t else t

/-- `_preprocess_track`, `sample/sample.py:107-126`; `xsize` is `np.size(x)`, `none` is NaN.
Simplification: the operations on the time axis are fused into `frameTime`. -/
def preprocessTrack (c : Analysis K) (xsize : Nat) (t : Track K) : Except PyErr (PreTrack K) :=
  let notnans := t.mag.map Option.isSome
  match mask (List.range t.mag.length) notnans with
  | .error e => .error e
  | .ok idx =>
    match filterItem t.freq notnans, filterItem t.mag notnans, filterItem t.phase notnans with
    | .ok freq, .ok mag, .ok phase =>
      .ok ⟨idx.map (frameTime c xsize t.start), freq,
        mag.map (fun m => m.map (· + c.doubleDb)), phase⟩
    | .error e, _, _ => .error e
    | _, .error e, _ => .error e
    | _, _, .error e => .error e

/-! ## Parameter matrix -/

/-- `np.array(list(params)).T`, `sample/sample.py:188`: the list of columns (one tuple per mode)
becomes a matrix of rows; tuples of different sizes cannot be stacked.  `none` is NaN or an
infinity. -/
def stack {α : Type*} (nrows : Nat) (params : List (List α)) : Except PyErr (List (List α)) :=
  if params.all (fun p => decide (p.length = nrows)) then
    .ok ((List.range nrows).map fun r => params.filterMap fun p => p[r]?)
  else .error .valueError

/-- Number of columns of a matrix given by its rows. -/
def ncols {α : Type*} (m : List (List α)) : Nat :=
  match m with
  | [] => 0
  | r :: _ => r.length

/-- `_valid_params_`, `sample/sample.py:197-200`: one flag per column. -/
def validParams {α : Type*} (m : List (List (Option α))) : List Bool :=
  (List.range (ncols m)).map fun j =>
    m.all fun row => match row[j]? with
      | some (some _) => true
      | _ => false

/-- `m[:, flags]`. -/
def maskColumns {α : Type*} (flags : List Bool) :
    List (List α) → Except PyErr (List (List α))
  | [] => .ok []
  | r :: rs =>
    match mask r flags with
    | .error e => .error e
    | .ok r' =>
      match maskColumns flags rs with
      | .error e => .error e
      | .ok rs' => .ok (r' :: rs')

/-- The end of `fit`, `sample/sample.py:188-195`: `nrows` is `_PARAM_MATRIX_NROWS`. -/
def cleanParams {α : Type*} (nrows : Nat) (params : List (List (Option α))) :
    Except PyErr (List (List (Option α))) :=
  match params with
  | [] => maskColumns (validParams (List.replicate nrows ([] : List (Option α))))
      (List.replicate nrows [])
  | p :: ps =>
    match stack nrows (p :: ps) with
    | .error e => .error e
    | .ok m => maskColumns (validParams m) m

/-! ## Modes -/

/-- A fitted model: the rows of `param_matrix_` (all finite, `sample/sample.py:202-227`) and the
parameter `max_n_modes`. -/
structure Fitted (K : Type*) where
  freqs : List K
  decays : List K
  amps : List K
  maxNModes : Option Int

/-- `modal_energy`, `sample/sample.py:19-36`, entry by entry (fresh output array). -/
def modalEnergy (a d : K) : K := a ^ 2 * d / 4

/-- `energies_`, `sample/sample.py:229-232`. -/
def Fitted.energies (s : Fitted K) : List K := List.zipWith modalEnergy s.amps s.decays

/-- `getattr(self, f"{order}_")` in `mode_argsort_`, `sample/sample.py:249`.  Simplification: the
names of other array attributes are not accepted. -/
def Fitted.feature (s : Fitted K) (order : String) : Except PyErr (List K) :=
  if order = "energies" then .ok s.energies
  else if order = "freqs" then .ok s.freqs
  else if order = "decays" then .ok s.decays
  else if order = "amps" then .ok s.amps
  else .error .attributeError

/-- What is known about `np.argsort` (ascending, ties in any order). -/
def IsArgsortAsc (keys : List K) (idx : List Nat) : Prop :=
  idx.Perm (List.range keys.length) ∧
    idx.Pairwise fun i j => ∀ a b : K, keys[i]? = some a → keys[j]? = some b → a ≤ b

/-- `mode_argsort_`, `sample/sample.py:234-252`; `argsort` is `np.argsort`. -/
def Fitted.modeArgsort (argsort : List K → List Nat) (s : Fitted K) (order : String)
    (reverse : Bool) : Except PyErr (List Nat) :=
  match s.feature order with
  | .error e => .error e
  | .ok keys =>
    let asort := argsort keys
    .ok (if reverse then asort.reverse else asort)

/-- `a[m_ord]` with an array of (non-negative) indices. -/
def fancy {α : Type*} (l : List α) (idx : List Nat) : Except PyErr (List α) :=
  Np.take l (idx.map Int.ofNat)

/-- The number of modes to use in `predict`, `sample/sample.py:304-308`. -/
def Fitted.nModes (s : Fitted K) : Option Int → Int
  | some n => n
  | none =>
    match s.maxNModes with
    | none => s.freqs.length
    | some m => m

/-- The modes chosen by `predict`, `sample/sample.py:304-309` (up to the call of
`additive_synth`): indices of the modes. -/
def Fitted.selectModes (argsort : List K → List Nat) (s : Fitted K) (nModes : Option Int)
    (order : String) (reverse : Bool) : Except PyErr (List Nat) :=
  match s.modeArgsort argsort order reverse with
  | .error e => .error e
  | .ok o => .ok (Np.slice o none (some (s.nModes nModes)))

/-- `kwargs["phases"][m_ord]` if the phases are an array, `sample/sample.py:310-311`. -/
def fancyOpt {α : Type*} (phases : Option (List α)) (o : List Nat) :
    Except PyErr (Option (List α)) :=
  match phases with
  | none => .ok none
  | some p =>
    match fancy p o with
    | .error e => .error e
    | .ok q => .ok (some q)

/-- The arguments passed to `additive_synth` by `predict`, `sample/sample.py:309-313`: frequencies,
decays, amplitudes, and phases if they are an array. -/
def Fitted.predictArgs (argsort : List K → List Nat) (s : Fitted K) (nModes : Option Int)
    (order : String) (reverse : Bool) (phases : Option (List K)) :
    Except PyErr (List K × List K × List K × Option (List K)) :=
  match s.selectModes argsort nModes order reverse with
  | .error e => .error e
  | .ok o =>
    match fancyOpt phases o with
    | .error e => .error e
    | .ok ph =>
      match fancy s.freqs o, fancy s.decays o, fancy s.amps o with
      | .ok f, .ok d, .ok a => .ok (f, d, a, ph)
      | .error e, _, _ => .error e
      | _, .error e, _ => .error e
      | _, _, .error e => .error e

/-- The dictionary returned by `sdt_params_`. -/
structure SdtParams (K : Type*) where
  nModes : Nat
  nPickups : Nat
  activeModes : Int
  fragmentSize : K
  freqs : List K
  decays : List K
  weights : List K
  gains : List (List K)

/-- `active_modes` in `sdt_params_`, `sample/sample.py:269-270`. -/
def Fitted.activeModes (s : Fitted K) : Int :=
  match s.maxNModes with
  | none => s.freqs.length
  | some m => min m s.freqs.length

/-- `sdt_params_`, `sample/sample.py:254-280`.  `1 / n_modes` is a division of Python integers. -/
def Fitted.sdtParams (argsort : List K → List Nat) (s : Fitted K) (order : String)
    (reverse : Bool) : Except PyErr (SdtParams K) :=
  let n := s.freqs.length
  match s.modeArgsort argsort order reverse with
  | .error e => .error e
  | .ok o =>
    match fancy s.freqs o, fancy s.decays o with
    | .ok f, .ok d =>
      if n = 0 then .error .zeroDivisionError
      else
        match fancy s.amps o with
        | .error e => .error e
        | .ok a => .ok ⟨n, 1, s.activeModes, 1, f, d, List.replicate n (1 / (n : K)), [a]⟩
    | .error e, _ => .error e
    | _, .error e => .error e

end Verif.Sample
