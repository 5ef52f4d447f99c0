import Mathlib.Data.Countable.Basic
import Mathlib.Data.Rat.Encodable
import Verif.Widgets.ApplyLemmas

/-!
# C61, C84, C85: windows, parameters made from the settings, repeated and restored settings
-/

set_option autoImplicit false
set_option linter.unusedSectionVars false
set_option linter.unusedSimpArgs false

namespace Verif.Widgets

open Verif

variable {K W : Type} [Field K] [LinearOrder K] [IsStrictOrderedRing K] [FloorRing K]

/-! ### C61: the window -/

/-- **C61** (termination): if the Blackman window can be made for every size of at least one, the
loop ends within three rounds, whatever the requested type and size; the window made is the one of the
final type and size.  The type is the requested one or Blackman; the size is the requested one if that is
at least one.  The result does not depend on the number of rounds allowed.  An exception is another one
than `ValueError`. -/
theorem C61_windows (gw : String → Int → Except PyErr W)
    (hb : ∀ s, 1 ≤ s → ∃ w, gw "blackman" s = .ok w) (wtype : String) (wsize : Int) :
    ∃ r, (∀ fuel, 3 ≤ fuel → windowLoop gw fuel wtype wsize = some r) ∧
      (∀ w s t, r = .ok (w, s, t) → gw t s = .ok w ∧ (t = wtype ∨ t = "blackman") ∧
        (1 ≤ wsize → s = wsize)) ∧
      (∀ e, r = .error e → e ≠ .valueError) := by
  have key : ∃ r, windowLoop gw 3 wtype wsize = some r ∧ ∀ e, r = .error e → e ≠ .valueError := by
    have big : ∀ (t : String) (s : Int), 1 ≤ s →
        ∃ r, windowLoop gw 2 t s = some r ∧ ∀ e, r = .error e → e ≠ .valueError := by
      intro t s hs
      cases h1 : gw t s with
      | ok w => exact ⟨.ok (w, s, t), by simp only [windowLoop, h1], by simp⟩
      | error e =>
        by_cases he : e = .valueError
        · subst he
          obtain ⟨w, hw⟩ := hb s hs
          exact ⟨.ok (w, s, "blackman"), by simp only [windowLoop, h1, not_lt.2 hs, if_false, hw], by simp⟩
        · refine ⟨.error e, ?_, by simpa using he⟩
          cases e <;> simp_all [windowLoop]
    rcases lt_or_ge wsize 1 with hs | hs
    · cases h1 : gw wtype wsize with
      | ok w => exact ⟨.ok (w, wsize, wtype), by simp only [windowLoop, h1], by simp⟩
      | error e =>
        by_cases he : e = .valueError
        · subst he
          obtain ⟨r, h2, h3⟩ := big wtype 4096 (by norm_num)
          refine ⟨r, ?_, h3⟩
          rw [windowLoop, h1]
          simp only [hs, if_true]
          exact h2
        · refine ⟨.error e, ?_, by simpa using he⟩
          cases e <;> simp_all [windowLoop]
    · obtain ⟨r, h2, h3⟩ := big wtype wsize hs
      exact ⟨r, windowLoop_mono gw 2 _ _ _ h2 3 (by norm_num), h3⟩
  obtain ⟨r, h1, h2⟩ := key
  refine ⟨r, fun fuel hf => windowLoop_mono gw 3 _ _ _ h1 fuel hf, ?_, h2⟩
  rintro w s t rfl
  obtain ⟨a, b, c⟩ := windowLoop_ok gw 3 _ _ _ _ _ h1
  exact ⟨a, b, fun hs => by rcases c with c | ⟨-, c⟩ <;> omega⟩

/-- A `get_window` for the examples: knows two window types; sizes below one are refused. -/
def demoWindow (t : String) (s : Int) : Except PyErr (List Nat) :=
  if s < 1 then .error .valueError
  else if t = "blackman" ∨ t = "hann" then .ok (List.replicate s.toNat t.length)
  else .error .valueError

example : ∀ s : Int, 1 ≤ s → ∃ w, demoWindow "blackman" s = .ok w := by
  intro s hs; simp [demoWindow, not_lt.2 hs]

example : (windowLoop demoWindow 3 "kaiser" 0).map (fun r => r.toOption.map fun r => (r.2.1, r.2.2)) =
    some (some (4096, "blackman")) := by decide +kernel

/-- **C61** (finding): if the Blackman window cannot be made, the loop never ends. -/
theorem C61_endless (gw : String → Int → Except PyErr W) (s : Int) (hs : 1 ≤ s)
    (hb : gw "blackman" s = .error .valueError) :
    ∀ fuel, windowLoop gw fuel "blackman" s = none
  | 0 => rfl
  | fuel + 1 => by
    rw [windowLoop, hb]
    simp only [not_lt.2 hs, if_false]
    exact C61_endless gw s hs hb fuel

example : (fun (_ : String) (_ : Int) => (.error .valueError : Except PyErr Unit)) "blackman" 4 =
    .error .valueError := rfl

/-- **C61** (post-processing): for an FFT size and a window size of at least one (those that the parsers
return) the window size shown is the requested one, but not more than the FFT size; the window is made
with the type and size shown. -/
theorem C61_post (gw : String → Int → Except PyErr W)
    (hb : ∀ s, 1 ≤ s → ∃ w, gw "blackman" s = .ok w)
    (hv : ∀ t s e, gw t s = .error e → e = .valueError) (n wsize : Int) (wtype : String) (hn : 1 ≤ n)
    (hs : 1 ≤ wsize) (kw : Dict (SVal K W)) (h1 : kw.get? "sinusoidal__n" = some (.int n))
    (h2 : kw.get? "wsize" = some (.int wsize)) (h3 : kw.get? "wtype" = some (.str wtype)) :
    ∃ (t : String) (w : W), (∀ fuel, 3 ≤ fuel → postWindows gw fuel kw =
        some (.ok ([("sinusoidal__n", .int n), ("wsize", .int (min wsize n)), ("wtype", .str t)],
          [("sinusoidal__n", .int n), ("sinusoidal__w", .win w)]))) ∧
      gw t (min wsize n) = .ok w ∧
      (t = wtype ∨ t = "blackman" ∧ gw wtype (min wsize n) = .error .valueError) := by
  have h0 : 1 ≤ min wsize n := le_min hs hn
  cases hw : gw wtype (min wsize n) with
  | ok w =>
    refine ⟨wtype, w, fun fuel hf => ?_, hw, .inl rfl⟩
    obtain ⟨f, rfl⟩ : ∃ f, fuel = f + 1 := ⟨fuel - 1, by omega⟩
    simp only [postWindows, h1, h2, h3, windowLoop, hw, Option.map_some, Except.map, windowUpdates]
  | error e =>
    obtain rfl := hv _ _ _ hw
    obtain ⟨w, hb⟩ := hb _ h0
    refine ⟨"blackman", w, fun fuel hf => ?_, hb, .inr ⟨rfl, rfl⟩⟩
    obtain ⟨f, rfl⟩ : ∃ f, fuel = f + 2 := ⟨fuel - 2, by omega⟩
    simp only [postWindows, h1, h2, h3, windowLoop, hw, not_lt.2 h0, if_false, hb, Option.map_some,
      Except.map, windowUpdates]

example : (postWindows (K := ℚ) demoWindow 3 [("sinusoidal__n", .int 4), ("wsize", .int 9),
    ("wtype", .str "none")]).map (fun r => r.toOption.map fun u => u.1 ++ u.2) = some (some
      [("sinusoidal__n", .int 4), ("wsize", .int 4), ("wtype", .str "blackman"),
        ("sinusoidal__n", .int 4), ("sinusoidal__w", .win [8, 8, 8, 8])]) := by decide +kernel

/-- **C61** (finding): with an FFT size below one, which only a settings file can contain, the window
size becomes 4096, more than the FFT size. -/
theorem C61_small (gw : String → Int → Except PyErr W) (n wsize : Int) (wtype : String) (hn : n < 1)
    (h0 : gw wtype (min wsize n) = .error .valueError) (w : W) (hw : gw wtype 4096 = .ok w)
    (kw : Dict (SVal K W)) (h1 : kw.get? "sinusoidal__n" = some (.int n))
    (h2 : kw.get? "wsize" = some (.int wsize)) (h3 : kw.get? "wtype" = some (.str wtype)) :
    postWindows gw 2 kw = some (.ok ([("sinusoidal__n", .int n), ("wsize", .int 4096),
      ("wtype", .str wtype)], [("sinusoidal__n", .int n), ("sinusoidal__w", .win w)])) := by
  have : min wsize n < 1 := lt_of_le_of_lt (min_le_right _ _) hn
  simp only [postWindows, h1, h2, h3, windowLoop, h0, this, if_true, hw, Option.map_some, Except.map,
    windowUpdates]

example : (postWindows (K := ℚ) demoWindow 2 [("sinusoidal__n", .int (-1)), ("wsize", .int 9),
    ("wtype", .str "hann")]).map (fun r => r.toOption.map fun u => u.1) = some (some
      [("sinusoidal__n", .int (-1)), ("wsize", .int 4096), ("wtype", .str "hann")]) := by
  decide +kernel

/-! ### C84: frequency bounds -/

theorem lt_asymm' (a b : Flt K) (h : b.lt a = true) : a.lt b = false ∧ b.eq a = false := by
  cases a <;> cases b <;> simp_all [Flt.lt, Flt.eq]
  · exact ⟨h.le, h.ne⟩

theorem trichotomy (a b : Flt K) (ha : a ≠ .nan) (hb : b ≠ .nan) (h1 : b.lt a = false)
    (h2 : a.eq b = false) : a.lt b = true := by
  cases a <;> cases b <;> simp_all [Flt.lt, Flt.eq]
  exact lt_of_le_of_ne h1 h2

/-- **C84** (frequency bounds): the bounds shown are the ones used; the lower is less than the upper
one, unless one of them is NaN; they are the two numbers given, in some order, if those differ. -/
theorem C84_bounds (kw : Dict (SVal K W)) (a b : Flt K) (sa sb : SVal K W)
    (h0 : kw.get? "smfb_0" = some sa) (h1 : kw.get? "smfb_1" = some sb) (ha : sa.num = some a)
    (hb : sb.num = some b) :
    ∃ lo hi : Flt K, postBounds kw = .ok ([("smfb_0", .flt lo), ("smfb_1", .flt hi)],
        [("sinusoidal__tracker__frequency_bounds", .pair lo hi)]) ∧
      (a ≠ .nan → b ≠ .nan → lo.lt hi = true) ∧
      (a.eq b = false → lo = a ∧ hi = b ∨ lo = b ∧ hi = a) ∧
      (a.eq b = true → lo = .fin 20 ∧ hi = .fin 16000) := by
  refine ⟨(bounds a b).1, (bounds a b).2, ?_, ?_, ?_, ?_⟩
  · simp only [postBounds, h0, h1, Option.bind_some, ha, hb, bounds]
  · intro na nb
    unfold bounds
    cases hl : b.lt a
    · cases he : a.eq b
      · simpa using trichotomy a b na nb hl he
      · simp only [Bool.false_eq_true, if_false, if_true, Flt.lt, decide_eq_true_eq]
        norm_num
    · simpa using hl
  · intro he
    unfold bounds
    cases hl : b.lt a <;> simp [he]
  · intro he
    unfold bounds
    cases hl : b.lt a
    · simp [he]
    · have := (lt_asymm' a b hl).2
      cases a <;> cases b <;> simp_all [Flt.lt, Flt.eq]

example : (postBounds (W := Unit) [("smfb_0", .flt (.fin (500 : ℚ))), ("smfb_1", .flt (.fin 100))]).toOption =
    some ([("smfb_0", .flt (.fin 100)), ("smfb_1", .flt (.fin 500))],
      [("sinusoidal__tracker__frequency_bounds", .pair (.fin 100) (.fin 500))]) := by decide +kernel

/-! ### What the entries contain -/

/-- Values that survive being shown in an entry and read again. -/
def Stable (env : Env K W) (kind : Kind K) (v : SVal K W) : Prop :=
  getSetting env kind (setSetting env kind v) = .ok v

/-- Python's conversions: `float(str(v))` is `v` for numbers, `float("None")` raises, `str` of a string is
that string; the default theme is a theme and no theme is empty. -/
structure Laws (env : Env K W) : Prop where
  int : ∀ n : Int, env.parse (env.show_ (.int n)) = some (.fin n)
  flt : ∀ v, env.parse (env.show_ (.flt v)) = some v
  none : env.parse (env.show_ .none) = Option.none
  str : ∀ s, env.show_ (.str s) = s
  theme0 : env.theme0 ∈ env.themes
  noEmpty : "" ∉ env.themes

/-- Parse functions whose default is in the domain of the parser. -/
def Kind.Wf : Kind K → Prop
  | .posInt (some d) => 1 ≤ d
  | .clip l r (some d) => (∀ x, l = some x → x ≤ d) ∧ (∀ x, r = some x → d ≤ x)
  | .clip l r none => ∀ x y, l = some x → r = some y → x ≤ y
  | _ => True

theorem toInt_int (n : Int) (hn : 1 ≤ n) : (Flt.max (.fin (n : K)) (.fin 1)).toInt = .ok n := by
  have h1 : (1 : K) ≤ n := by exact_mod_cast hn
  simp [Flt.max, Flt.lt, not_lt.2 h1, Flt.toInt, zero_le_one.trans h1]

theorem stable_int (env : Env K W) (laws : Laws env) (d : Option Int) (n : Int) (hn : 1 ≤ n) :
    Stable env (.posInt d) (.int n) := by
  simp [Stable, setSetting, getSetting, customPositiveInt, laws.int, toInt_int n hn, Except.map,
    SVal.ofInt]

theorem posInt_range (parse : Parse K) (d : Option Int) (hd : ∀ n, d = some n → 1 ≤ n) (s : String)
    (o : Option Int) (h : customPositiveInt parse d s = .ok o) :
    (∃ n, o = some n ∧ 1 ≤ n) ∨ o = none ∧ d = none := by
  obtain ⟨h1, h2, h3⟩ := C60_positive_int parse d s
  obtain ⟨h4, h5⟩ := C60_positive_int_raises parse d s
  cases hp : parse s with
  | none =>
    have := h3 hp
    rw [h] at this
    cases this
    cases d with
    | none => exact .inr ⟨rfl, rfl⟩
    | some n => exact .inl ⟨n, rfl, hd n rfl⟩
  | some v =>
    cases v with
    | fin v =>
      obtain ⟨n, a, b, -⟩ := h1 v hp
      rw [h] at a
      cases a
      exact .inl ⟨n, rfl, b⟩
    | inf => rw [h5 hp] at h; cases h
    | ninf => rw [h2 hp] at h; cases h; exact .inl ⟨1, rfl, le_rfl⟩
    | nan => rw [h4 hp] at h; cases h

theorem pow2_range (parse : Parse K) (s : String) (n : Int) (h : nextPowerOf2 parse s = .ok n) :
    ∃ e : Nat, n = 2 ^ e := by
  unfold nextPowerOf2 at h
  split at h
  · cases h
  · cases h
  · injection h with h
    exact ⟨_, h.symm⟩

theorem pow2_fix (env : Env K W) (laws : Laws env) (e : Nat) :
    Stable env .pow2 (.int (2 ^ e)) := by
  obtain ⟨e', h1, h2⟩ := C61_power env.parse (env.show_ (.int (2 ^ e))) ((2 ^ e : Int) : K)
    (laws.int (2 ^ e))
  have : e' = e := by
    have h3 : ∀ j, e ≤ j ↔ e' ≤ j := by
      intro j
      rw [← h2 j, Int.floor_intCast, max_eq_right (one_le_pow₀ (by norm_num)),
        pow_le_pow_iff_right₀ (by norm_num)]
    exact le_antisymm ((h3 e).1 le_rfl) ((h3 e').2 le_rfl)
  subst this
  simp [Stable, setSetting, getSetting, h1, Except.map]

theorem clipLeft_idem (l : Option K) (x : Flt K) : clipLeft l (clipLeft l x) = clipLeft l x := by
  cases l with
  | none => rfl
  | some l =>
    simp only [clipLeft, Flt.max]
    by_cases h : Flt.lt (.fin l) x = true
    · simp [h]
    · simp [h]

theorem clipRight_idem (r : Option K) (x : Flt K) : clipRight r (clipRight r x) = clipRight r x := by
  cases r with
  | none => rfl
  | some r =>
    simp only [clipRight, Flt.min]
    by_cases h : Flt.lt x (.fin r) = true
    · simp [h]
    · simp [h]

theorem clip_idem (l r : Option K) (hlr : ∀ x y, l = some x → r = some y → x ≤ y) (x : Flt K) :
    clipRight r (clipLeft l (clipRight r (clipLeft l x))) = clipRight r (clipLeft l x) := by
  have key : clipLeft l (clipRight r (clipLeft l x)) = clipRight r (clipLeft l x) := by
    cases r with
    | none => exact clipLeft_idem l x
    | some r =>
      cases h : Flt.lt (clipLeft l x) (.fin r)
      · simp only [clipRight, Flt.min, h, Bool.false_eq_true, if_false]
        cases l with
        | none => rfl
        | some l =>
          have := hlr l r rfl rfl
          simp only [clipLeft, Flt.max, Flt.lt]
          rcases this.lt_or_eq with h | h
          · simp [h]
          · simp [h]
      · simp only [clipRight, Flt.min, h, if_true]
        exact clipLeft_idem l x
  rw [key, clipRight_idem]

theorem clip_fix (l r : Option K) (d : K) (h1 : ∀ x, l = some x → x ≤ d) (h2 : ∀ x, r = some x → d ≤ x) :
    clipRight r (clipLeft l (.fin d)) = .fin d := by
  have a : clipLeft l (.fin d) = .fin d := by
    cases l with
    | none => rfl
    | some x =>
      rcases (h1 x rfl).lt_or_eq with h | h <;> simp [clipLeft, Flt.max, Flt.lt, h]
  rw [a]
  cases r with
  | none => rfl
  | some x =>
    rcases (h2 x rfl).lt_or_eq with h | h <;> simp [clipRight, Flt.min, Flt.lt, h]

/-- **C85** (one setting): a value that was read from an entry is read again unchanged after it has been
shown in the entry, for every setting of the table. -/
theorem C85_stable (env : Env K W) (laws : Laws env) (kind : Kind K) (hk : kind.Wf) (raw : Raw)
    (v : SVal K W) (h : getSetting env kind raw = .ok v) : Stable env kind v := by
  cases raw with
  | check b =>
    cases kind <;> simp only [getSetting, reduceCtorEq] at h
    injection h with h
    subst h
    rfl
  | text s =>
    cases kind with
    | posInt d =>
      simp only [getSetting] at h
      cases hc : customPositiveInt env.parse d s with
      | error e => rw [hc] at h; cases h
      | ok o =>
        rw [hc] at h
        injection h with h
        subst h
        rcases posInt_range env.parse d (fun n hn => by subst hn; exact hk) s o hc with
          ⟨n, rfl, hn⟩ | ⟨rfl, rfl⟩
        · exact stable_int env laws d n hn
        · simp [Stable, SVal.ofInt, setSetting, getSetting, customPositiveInt, laws.none, Except.map]
    | pow2 =>
      simp only [getSetting] at h
      cases hc : nextPowerOf2 env.parse s with
      | error e => rw [hc] at h; cases h
      | ok n =>
        rw [hc] at h
        injection h with h
        subst h
        obtain ⟨e, rfl⟩ := pow2_range env.parse s n hc
        exact pow2_fix env laws e
    | num =>
      simp only [getSetting] at h
      cases hc : tryFloat env.parse s with
      | error e => rw [hc] at h; cases h
      | ok v =>
        rw [hc] at h
        injection h with h
        subst h
        simp [Stable, setSetting, getSetting, (C60_float env.parse _).1 v (laws.flt v), Except.map]
    | clip l r d =>
      simp only [getSetting, floatClip] at h
      have hlr : ∀ x y, l = some x → r = some y → x ≤ y := by
        cases d with
        | none => exact hk
        | some d => exact fun x y hx hy => (hk.1 x hx).trans (hk.2 y hy)
      cases hc : env.parse s with
      | none =>
        rw [hc] at h
        injection h with h
        subst h
        have : clipRight r (clipLeft l (.fin (clipDefault l r d))) = .fin (clipDefault l r d) := by
          cases d with
          | some d => exact clip_fix l r d hk.1 hk.2
          | none =>
            obtain ⟨-, x, hx, h1, h2⟩ := C60_clip_default env.parse l r hlr s hc
            simp only [floatClip, hc, Except.ok.injEq, Flt.fin.injEq] at hx
            rw [hx]
            exact clip_fix l r x h1 h2
        simp [Stable, setSetting, getSetting, floatClip, laws.flt, Except.map, this]
      | some v =>
        rw [hc] at h
        injection h with h
        subst h
        simp [Stable, setSetting, getSetting, floatClip, laws.flt, Except.map, clip_idem l r hlr]
    | strip =>
      simp only [getSetting, stripTime] at h
      cases hc : env.parse s with
      | none =>
        rw [hc] at h
        injection h with h
        subst h
        simp [Stable, SVal.ofFlt, setSetting, getSetting, stripTime, laws.none, Except.map]
      | some v =>
        rw [hc] at h
        cases hv : v.le (.fin 0)
        · simp only [hv, Bool.false_eq_true, if_false] at h
          injection h with h
          subst h
          simp [Stable, SVal.ofFlt, setSetting, getSetting, stripTime, laws.flt, Except.map, hv]
        · simp only [hv, if_true] at h
          injection h with h
          subst h
          simp [Stable, SVal.ofFlt, setSetting, getSetting, stripTime, laws.none, Except.map]
    | check => simp [getSetting] at h
    | text =>
      simp only [getSetting] at h
      injection h with h
      subst h
      simp [Stable, setSetting, getSetting, laws.str]

theorem table_wf (k : String) (kind : Kind K) (h : kindOf table k = some kind) : kind.Wf := by
  unfold kindOf at h
  cases hf : (table (K := K)).find? fun e => decide (e.1 = k) with
  | none => rw [hf] at h; cases h
  | some e =>
    rw [hf] at h
    injection h with h
    subst h
    have hm := List.mem_of_find?_eq_some hf
    revert hm
    simp only [table, List.mem_cons, List.not_mem_nil, or_false]
    rintro (rfl | rfl | rfl | rfl | rfl | rfl | rfl | rfl | rfl | rfl | rfl | rfl | rfl | rfl | rfl |
      rfl | rfl | rfl | rfl | rfl | rfl | rfl) <;> simp [Kind.Wf] <;> norm_num

/-- The assumptions on conversions can be met: floats are countable, so there is such a notation. -/
theorem laws_satisfiable : ∃ env : Env ℚ (List Nat), Laws env ∧ env.getWindow = demoWindow ∧
    env.fileValid = true := by
  have hc : Countable (Flt ℚ) := by
    let f : Flt ℚ → Option (Option (Option ℚ)) := fun v => match v with
      | .fin q => some (some (some q))
      | .inf => some (some none)
      | .ninf => some none
      | .nan => none
    refine (Function.Injective.countable (f := f) ?_)
    intro a b h
    cases a <;> cases b <;> simp_all [f]
  obtain ⟨g, hg⟩ := hc.exists_injective_nat
  classical
  let enc : Flt ℚ → String := fun v => String.ofList (List.replicate (g v) 'x')
  have henc : Function.Injective enc := by
    intro a b h
    have := congrArg (fun s => s.toList.length) h
    simp only [enc, String.toList_ofList, List.length_replicate] at this
    exact hg this
  have hne : ∀ v, enc v ≠ "None" := by
    intro v h
    have : 'N' ∈ (enc v).toList := by rw [h]; decide +kernel
    simp only [enc, String.toList_ofList] at this
    exact absurd (List.eq_of_mem_replicate this) (by decide)
  refine ⟨⟨fun s => if h : ∃ v, enc v = s then some h.choose else none,
    fun v => match v with
      | .int n => enc (.fin n)
      | .flt v => enc v
      | .str s => s
      | _ => "None", ["arc"], "arc", demoWindow, true⟩, ⟨?_, ?_, ?_, fun s => rfl, by simp, by simp⟩,
      rfl, rfl⟩
  · intro n
    have h : ∃ v, enc v = enc (.fin (n : ℚ)) := ⟨_, rfl⟩
    simp only [h, dif_pos]
    exact congrArg some (henc h.choose_spec)
  · intro v
    have h : ∃ v', enc v' = enc v := ⟨_, rfl⟩
    simp only [h, dif_pos]
    exact congrArg some (henc h.choose_spec)
  · have h : ¬∃ v, enc v = "None" := fun ⟨v, hv⟩ => hne v hv
    simp only [h, dif_neg, not_false_eq_true]

/-! ### The callback -/

/-- What the settings contain after post-processing of values that were read from the entries. -/
structure Shown (env : Env K W) (S P : Dict (SVal K W)) (n ws : Int) (wt th : String) (a b : Flt K)
    (p : Bool) (j : Int) (w : W) : Prop where
  ok : Dict.Ok S
  keys : S.map Prod.fst = (table (K := K)).map Prod.fst
  stable : ∀ k kind v, kindOf table k = some kind → S.get? k = some v → Stable env kind v
  fft : S.get? "sinusoidal__n" = some (.int n)
  pow : ∃ e : Nat, n = 2 ^ e
  wsize : S.get? "wsize" = some (.int ws)
  wsize_range : 1 ≤ ws ∧ ws ≤ n
  wtype : S.get? "wtype" = some (.str wt)
  window : env.getWindow wt ws = .ok w
  lower : S.get? "smfb_0" = some (.flt a)
  upper : S.get? "smfb_1" = some (.flt b)
  ordered : a.lt b = true ∨ a = .nan ∨ b = .nan
  bounds : bounds a b = (a, b)
  parallel : S.get? "parallel" = some (.bool p)
  jobs : S.get? "n_jobs" = some (.int j)
  jobs_range : 1 ≤ j
  theme : S.get? "gui_theme" = some (.str th)
  theme_ok : th ∈ env.themes
  params : ∀ k, P.get? k = (Dict.get? [("n_jobs", .int (if p then j else 0)), ("sinusoidal__n", .int n),
    ("sinusoidal__w", .win w), ("sinusoidal__tracker__frequency_bounds", .pair a b)] k).or
      (if k ∈ special then none else S.get? k)

theorem table_nodup : ((table (K := K)).map Prod.fst).Nodup := by
  simp only [table, List.map_cons, List.map_nil]
  decide +kernel

theorem bounds_idem (a b : Flt K) : bounds (bounds a b).1 (bounds a b).2 = bounds a b := by
  unfold bounds
  cases hl : b.lt a
  · cases he : a.eq b
    · simp [hl, he]
    · have h1 : ¬(16000 : K) < 20 := by norm_num
      have h2 : ¬(20 : K) = 16000 := by norm_num
      simp [hl, he, Flt.lt, Flt.eq, h2]
      norm_num
  · simp [hl, (lt_asymm' a b hl).1, (lt_asymm' a b hl).2]

theorem bounds_ordered (a b : Flt K) :
    (bounds a b).1.lt (bounds a b).2 = true ∨ (bounds a b).1 = .nan ∨ (bounds a b).2 = .nan := by
  by_cases ha : a = .nan
  · subst ha; right; left
    cases b <;> simp [bounds, Flt.lt, Flt.eq]
  by_cases hb : b = .nan
  · subst hb; right; right
    cases a <;> simp [bounds, Flt.lt, Flt.eq]
  left
  unfold bounds
  cases hl : b.lt a
  · cases he : a.eq b
    · simpa using trichotomy a b ha hb hl he
    · simp only [Bool.false_eq_true, if_false, if_true, Flt.lt, decide_eq_true_eq]
      norm_num
  · simpa using hl

/-- The settings read from the entries have the types of their parsers. -/
theorem read_typed (env : Env K W) (entries : Dict Raw) (d : Dict (SVal K W))
    (h : readAll env [] entries table = .ok d) :
    (∃ e : Nat, d.get? "sinusoidal__n" = some (.int (2 ^ e))) ∧
    (∃ ws : Int, d.get? "wsize" = some (.int ws) ∧ 1 ≤ ws) ∧
    (∃ wt, d.get? "wtype" = some (.str wt)) ∧ (∃ a, d.get? "smfb_0" = some (.flt a)) ∧
    (∃ b, d.get? "smfb_1" = some (.flt b)) ∧ (∃ p, d.get? "parallel" = some (.bool p)) ∧
    (∃ j : Int, d.get? "n_jobs" = some (.int j) ∧ 1 ≤ j) ∧ (∃ t, d.get? "gui_theme" = some (.str t)) := by
  obtain ⟨hk, hv⟩ := readAll_ok env [] entries table d h
  have get : ∀ k kind, kindOf (table (K := K)) k = some kind → ∃ raw v, d.get? k = some v ∧
      getSetting env kind raw = .ok v := by
    intro k kind hkind
    have hm : k ∈ d.map Prod.fst := by
      rw [hk]
      unfold kindOf at hkind
      cases hf : (table (K := K)).find? fun e => decide (e.1 = k) with
      | none => rw [hf] at hkind; cases hkind
      | some e =>
        have := List.find?_some hf
        simp only [decide_eq_true_eq] at this
        exact List.mem_map.2 ⟨e, List.mem_of_find?_eq_some hf, this⟩
    obtain ⟨v, hd⟩ := (mem_keys_iff d k).1 hm
    obtain ⟨kind', raw, v', a, -, c, e⟩ := hv k v hd
    rw [hkind] at a
    cases a
    exact ⟨raw, v, hd, by rw [e]; simpa [get?_nil] using c⟩
  have kd : ∀ k kind, ((table (K := K)).find? fun e => decide (e.1 = k)) = some (k, kind) →
      kindOf (table (K := K)) k = some kind := by
    intro k kind h; simp [kindOf, h]
  refine ⟨?_, ?_, ?_, ?_, ?_, ?_, ?_, ?_⟩
  · obtain ⟨raw, v, h1, h2⟩ := get "sinusoidal__n" .pow2 (kd _ _ (by simp [table]))
    cases raw with
    | check b => simp [getSetting] at h2
    | text s =>
      simp only [getSetting] at h2
      cases hc : nextPowerOf2 env.parse s with
      | error e => rw [hc] at h2; cases h2
      | ok n =>
        rw [hc] at h2
        injection h2 with h2
        obtain ⟨e, rfl⟩ := pow2_range env.parse s n hc
        exact ⟨e, by rw [h1, ← h2]⟩
  · obtain ⟨raw, v, h1, h2⟩ := get "wsize" (.posInt (some 1)) (kd _ _ (by simp [table]))
    cases raw with
    | check b => simp [getSetting] at h2
    | text s =>
      simp only [getSetting] at h2
      cases hc : customPositiveInt env.parse (some 1) s with
      | error e => rw [hc] at h2; cases h2
      | ok o =>
        rw [hc] at h2
        injection h2 with h2
        rcases posInt_range env.parse (some 1) (by rintro n ⟨⟩; exact le_rfl) s o hc with
          ⟨n, rfl, hn⟩ | ⟨-, h⟩
        · exact ⟨n, by rw [h1, ← h2]; rfl, hn⟩
        · cases h
  · obtain ⟨raw, v, h1, h2⟩ := get "wtype" .text (kd _ _ (by simp [table]))
    cases raw with
    | check b => simp [getSetting] at h2
    | text s => injection h2 with h2; exact ⟨s, by rw [h1, ← h2]⟩
  · obtain ⟨raw, v, h1, h2⟩ := get "smfb_0" .num (kd _ _ (by simp [table]))
    cases raw with
    | check b => simp [getSetting] at h2
    | text s =>
      simp only [getSetting] at h2
      cases hc : tryFloat env.parse s with
      | error e => rw [hc] at h2; cases h2
      | ok o => rw [hc] at h2; injection h2 with h2; exact ⟨o, by rw [h1, ← h2]⟩
  · obtain ⟨raw, v, h1, h2⟩ := get "smfb_1" .num (kd _ _ (by simp [table]))
    cases raw with
    | check b => simp [getSetting] at h2
    | text s =>
      simp only [getSetting] at h2
      cases hc : tryFloat env.parse s with
      | error e => rw [hc] at h2; cases h2
      | ok o => rw [hc] at h2; injection h2 with h2; exact ⟨o, by rw [h1, ← h2]⟩
  · obtain ⟨raw, v, h1, h2⟩ := get "parallel" .check (kd _ _ (by simp [table]))
    cases raw with
    | check b => injection h2 with h2; exact ⟨b, by rw [h1, ← h2]⟩
    | text s => simp [getSetting] at h2
  · obtain ⟨raw, v, h1, h2⟩ := get "n_jobs" (.posInt (some 4)) (kd _ _ (by simp [table]))
    cases raw with
    | check b => simp [getSetting] at h2
    | text s =>
      simp only [getSetting] at h2
      cases hc : customPositiveInt env.parse (some 4) s with
      | error e => rw [hc] at h2; cases h2
      | ok o =>
        rw [hc] at h2
        injection h2 with h2
        rcases posInt_range env.parse (some 4) (by rintro n ⟨⟩; norm_num) s o hc with
          ⟨n, rfl, hn⟩ | ⟨-, h⟩
        · exact ⟨n, by rw [h1, ← h2]; rfl, hn⟩
        · cases h
  · obtain ⟨raw, v, h1, h2⟩ := get "gui_theme" .text (kd _ _ (by simp [table]))
    cases raw with
    | check b => simp [getSetting] at h2
    | text s => injection h2 with h2; exact ⟨s, by rw [h1, ← h2]⟩

theorem themeGet_mem (env : Env K W) (laws : Laws env) (file : Option (Dict (SVal K W))) :
    themeGet env file ∈ env.themes := by
  unfold themeGet
  split
  · split
    · assumption
    · exact laws.theme0
  · exact laws.theme0

end Verif.Widgets
