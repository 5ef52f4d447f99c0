import Verif.Tracker.ModalModel
import Verif.Sms.DspModel
import Verif.Sms.WindowModel
import Verif.Learn.Model

/-!
# Model of `SinusoidalModel`

`sample/sms/sm.py:228-382`: the object with its parameters, tracker state and storage, and `fit`.
-/

set_option autoImplicit false

namespace Verif.Sms

open Verif.Tracker Verif.Learn

variable {K : Type*} [Field K] [LinearOrder K]

/-- Parameters of the object and of its tracker, `sample/sms/sm.py:245-262`.  `modal` tells whether
the tracker is a `ModalTracker` (for a plain tracker only the plain part of `tracker` counts).
`hop` is the tracker's `h`, an integer. -/
structure Params (K : Type*) where
  w : List K
  n : Nat
  t : K
  padded : Bool
  modal : Bool
  tracker : ModalCfg K
  hop : Nat

/-- Configuration of the tracker, with the hop size as a number. -/
def Params.cfg (p : Params K) : ModalCfg K := { p.tracker with h := (p.hop : K) }

/-- `deactivate` of the tracker's class. -/
def Params.deact [FloorRing K] (p : Params K) : State K → Nat → Except PyErr (State K) :=
  if p.modal then modalDeactivate p.cfg else deactivate p.cfg.toCfg

/-- `getattr(self.tracker, "reverse", False)`, `sample/sms/sm.py:320`. -/
def Params.reverse (p : Params K) : Bool := p.modal && p.tracker.reverse

/-- What is kept in the storage: a spectrum or the refined peaks. -/
inductive Saved (K : Type*) where
  | stft (mx px : List K)
  | peaks (l : List (Option (K × K × K)))

/-- The object: parameters, tracker state, storage, and the attribute `w_`. -/
structure Model (K : Type*) where
  params : Params K
  state : State K
  storage : Storage (Saved K)
  w_ : Option (List K)

/-- Keyword arguments of `fit`: changes of parameters, a new value for the parameter `save` of the
storage, a new storage object (`intermediate=`).  Simplification: replacing the tracker object is
not modelled. -/
structure Kwargs (K : Type*) where
  upd : Params K → Params K
  save : Option Bool
  intermediate : Option (Storage (Saved K))

/-- No keyword arguments. -/
def Kwargs.none : Kwargs K := ⟨id, .none, .none⟩

/-- `set_params`, `sample/sms/sm.py:264-266`, as far as modelled. -/
def Model.setParams (m : Model K) (kw : Kwargs K) : Model K :=
  let st := kw.intermediate.getD m.storage
  { m with params := kw.upd m.params, storage := { st with save := kw.save.getD st.save } }

/-- `_normalized_window`, `sample/sms/sm.py:338-341`.  Simplification: a window with sum zero (NaN
and infinities in NumPy) is an error here. -/
def normalizedWindow (w : List K) : Except PyErr (List K) :=
  if w.sum = 0 then .error .zeroDivisionError else .ok (w.map fun a => a / w.sum)

/-- The arrays `pfreq`, `pmag`, `pph`, `sample/sms/sm.py:325-328`.  Simplification: a NaN location
(which is proved never to occur) is an error. -/
def toPeaks (fs : K) (n : Nat) : List (Option (K × K × K)) → Except PyErr (List (Peak K))
  | [] => .ok []
  | .none :: _ => .error .valueError
  | some (loc, mag, ph) :: ps =>
    match toPeaks fs n ps with
    | .error e => .error e
    | .ok l => .ok (⟨loc * fs / (n : K), mag, ph⟩ :: l)

/-- The loop of `fit`, `sample/sms/sm.py:323-330`.  `spec` is the FFT (see `dft`), `sort` is
`np.argsort(-pmag)` (see `IsArgsort`).  Progress updates (line 329-330) are not modelled here. -/
def fitLoop [FloorRing K] (spec : List K → List K × List K) (sort : List (Peak K) → List Nat)
    (p : Params K) (w : List K) :
    List (List K) → State K × Storage (Saved K) → Except PyErr (State K × Storage (Saved K))
  | [], s => .ok s
  | x :: xs, (s, st) =>
    match dft spec x w p.n with
    | .error e => .error e
    | .ok (mx, px) =>
      let st := (st.append "stft" (.stft mx px) .none).1
      match peakDetectInterp mx px (some p.t) with
      | .error e => .error e
      | .ok pk =>
        let st := (st.append "peaks" (.peaks pk) .none).1
        match toPeaks p.cfg.fs p.n pk with
        | .error e => .error e
        | .ok peaks =>
          match call p.deact p.cfg.toCfg (sort peaks) peaks s with
          | .error e => .error e
          | .ok s => fitLoop spec sort p w xs (s, st)

/-- `fit`, `sample/sms/sm.py:298-331`. -/
def Model.fit [FloorRing K] (spec : List K → List K × List K) (sort : List (Peak K) → List Nat)
    (m : Model K) (x : List K) (kw : Kwargs K) : Except PyErr (Model K) :=
  let m := { m with storage := m.storage.reset }
  let m := m.setParams kw
  let m := { m with state := Tracker.reset m.state }
  match normalizedWindow m.params.w with
  | .error e => .error e
  | .ok w_ =>
    let m := { m with w_ := some w_ }
    let x := if m.params.reverse then x.reverse else x
    match timeFrames m.params.padded m.params.w.length m.params.hop x with
    | .error e => .error e
    | .ok frames =>
      match fitLoop spec sort m.params (m.w_.getD []) frames (m.state, m.storage) with
      | .error e => .error e
      | .ok (s, st) => .ok { m with state := s, storage := st }

/-- `tracks_`, `sample/sms/sm.py:333-336`. -/
def Model.tracks [FloorRing K] (m : Model K) : List (Track K) :=
  if m.params.modal then modalAllTracks m.params.cfg m.state
  else allTracks m.params.cfg.toCfg m.state

end Verif.Sms
