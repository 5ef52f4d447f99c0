import Mathlib.Data.Rat.Defs
import Mathlib.Algebra.Field.Rat
import Mathlib.Tactic.Ring
import Verif.Psycho.AttrModel

/-!
# Parameters of a gammatone filter that are missing or callable (C145)
-/

set_option autoImplicit false
set_option linter.unusedSectionVars false
set_option linter.unusedSimpArgs false

namespace Verif.Psycho.Attrs

variable {K : Type} [Field K] [DecidableEq K] (erb : K → K) (pi : K)

/-- The attributes in an order in which each may be computed from the ones before. -/
def rank : Attr → Nat
  | .f | .n => 0
  | .bandwidth => 1
  | .rawGroupDelay => 2
  | .tc => 3
  | .groupDelay | .phi => 4

/-- A parameter that reads attributes of lower rank only. -/
def Below (s : Setting K) (r : Nat) : Prop :=
  ∀ g, s = .fn g → ∀ env env' : Attr → Except Err K,
    (∀ a, rank a < r → env a = env' a) → g env = g env'

/-- A filter whose functions do not depend on each other in a circle. -/
def Sound (o : Filter K) : Prop := Below o.bandwidth 1 ∧ Below o.tc 3 ∧ Below o.phi 4

theorem get_congr (s : Setting K) (r : Nat) (h : Below s r) (d d' : Except Err K) (hd : d = d')
    (env env' : Attr → Except Err K) (he : ∀ a, rank a < r → env a = env' a) :
    s.get d env = s.get d' env' := by
  cases s with
  | none => exact hd
  | val v => rfl
  | fn g => exact h g rfl env env' he

/-- Enough depth gives one value. -/
theorem read_stable (o : Filter K) (ho : Sound o) : ∀ (k : Nat) (a : Attr), rank a < k → ∀ k', rank a < k' →
    read erb pi k o a = read erb pi k' o a := by
  obtain ⟨h1, h2, h3⟩ := ho
  intro k
  induction k with
  | zero => intro a h; omega
  | succ k ih =>
    intro a h k' h'
    obtain ⟨k', rfl⟩ : ∃ j, k' = j + 1 := ⟨k' - 1, by omega⟩
    have low : ∀ b, rank b < rank a → read erb pi k o b = read erb pi k' o b :=
      fun b hb => ih b (by omega) k' (by omega)
    cases a with
    | f => rfl
    | n => rfl
    | bandwidth => exact get_congr _ 1 h1 _ _ rfl _ _ low
    | rawGroupDelay =>
      have e1 := low .bandwidth (by decide)
      simp only [read, e1]
    | tc =>
      simp only [read]
      exact get_congr _ 3 h2 _ _ (low .rawGroupDelay (by decide)) _ _ low
    | groupDelay =>
      have e1 := low .rawGroupDelay (by decide)
      have e2 := low .tc (by decide)
      simp only [read, e1, e2]
    | phi =>
      have e1 := low .tc (by decide)
      simp only [read]
      exact get_congr _ 4 h3 _ _ (by rw [e1]) _ _ low

/-- One level of reading. -/
def level (env : Attr → Except Err K) (o : Filter K) : Attr → Except Err K
  | .f => .ok o.f
  | .n => .ok o.n
  | .bandwidth => o.bandwidth.get (.ok (erb o.f)) env
  | .rawGroupDelay =>
    match env .bandwidth with
    | .error e => .error e
    | .ok b => divE (o.n - 1) (2 * pi * b)
  | .tc => o.tc.get (env .rawGroupDelay) env
  | .groupDelay =>
    match env .rawGroupDelay with
    | .error e => .error e
    | .ok r =>
      match env .tc with
      | .error e => .error e
      | .ok t => .ok (r - t)
  | .phi =>
    o.phi.get
      (match env .tc with
        | .error e => .error e
        | .ok t => .ok (-2 * pi * o.f * t))
      env

theorem read_succ (k : Nat) (o : Filter K) (a : Attr) :
    read erb pi (k + 1) o a = level erb pi (read erb pi k o) o a := by
  cases a <;> rfl

/-- The values at a sufficient depth. -/
theorem fixed (o : Filter K) (ho : Sound o) :
    (∀ k a, 5 ≤ k → read erb pi k o a = read erb pi 5 o a) ∧
    ∀ a, read erb pi 5 o a = level erb pi (read erb pi 5 o) o a := by
  have st := read_stable erb pi o ho
  have hk : ∀ k a, 5 ≤ k → read erb pi k o a = read erb pi 5 o a := by
    intro k a h
    have : rank a < 5 := by cases a <;> decide
    exact st k a (by omega) 5 this
  refine ⟨hk, fun a => ?_⟩
  rw [← read_succ]
  exact (hk 6 a (by omega)).symm

/-- C145: if no functions depend on each other in a circle, every attribute has one value, whatever the
depth at which it is read (five nested reads are enough): the one of its definition. -/
theorem C145_values (o : Filter K) (ho : Sound o) : ∃ env : Attr → Except Err K,
    (∀ k a, 5 ≤ k → read erb pi k o a = env a) ∧
    env .f = .ok o.f ∧ env .n = .ok o.n ∧
    (o.bandwidth = .none → env .bandwidth = .ok (erb o.f)) ∧
    (∀ v, o.bandwidth = .val v → env .bandwidth = .ok v) ∧
    (∀ g, o.bandwidth = .fn g → env .bandwidth = g env) ∧
    (∀ b, env .bandwidth = .ok b → 2 * pi * b ≠ 0 → env .rawGroupDelay = .ok ((o.n - 1) / (2 * pi * b))) ∧
    (∀ b, env .bandwidth = .ok b → 2 * pi * b = 0 →
      env .rawGroupDelay = .error (.py .zeroDivisionError)) ∧
    (∀ e, env .bandwidth = .error e → env .rawGroupDelay = .error e) ∧
    (o.tc = .none → env .tc = env .rawGroupDelay) ∧
    (∀ v, o.tc = .val v → env .tc = .ok v) ∧
    (∀ g, o.tc = .fn g → env .tc = g env) ∧
    (∀ r t, env .rawGroupDelay = .ok r → env .tc = .ok t → env .groupDelay = .ok (r - t)) ∧
    (∀ r, o.tc = .none → env .rawGroupDelay = .ok r → env .groupDelay = .ok 0) ∧
    (∀ t, o.phi = .none → env .tc = .ok t → env .phi = .ok (-2 * pi * o.f * t)) ∧
    (∀ v, o.phi = .val v → env .phi = .ok v) ∧
    (∀ g, o.phi = .fn g → env .phi = g env) := by
  obtain ⟨hk, hE⟩ := fixed erb pi o ho
  refine ⟨read erb pi 5 o, hk, ?_⟩
  generalize read erb pi 5 o = E at hE
  refine ⟨hE .f, hE .n, ?_, ?_, ?_, ?_, ?_, ?_, ?_, ?_, ?_, ?_, ?_, ?_, ?_, ?_⟩
  · intro h; rw [hE, level, h]; rfl
  · intro v h; rw [hE, level, h]; rfl
  · intro g h; rw [hE, level, h]; rfl
  · intro b h hb; rw [hE]; simp only [level, h, divE, if_neg hb]
  · intro b h hb; rw [hE]; simp only [level, h, divE, if_pos hb]
  · intro e h; rw [hE]; simp only [level, h]
  · intro h; rw [hE, level, h]; rfl
  · intro v h; rw [hE, level, h]; rfl
  · intro g h; rw [hE, level, h]; rfl
  · intro r t h1 h2; rw [hE]; simp only [level, h1, h2]
  · intro r h h1
    have h2 : E .tc = .ok r := by rw [hE, level, h]; exact h1
    rw [hE]; simp only [level, h1, h2, sub_self]
  · intro t h h1; rw [hE]; simp only [level, h, h1]; rfl
  · intro v h; rw [hE, level, h]; rfl
  · intro g h; rw [hE, level, h]; rfl

/-- C145: the scale is as given; a function for it is called with the values of the attributes. -/
theorem C145_scale (o : Filter K) (ho : Sound o) (k : Nat) (hk : 5 ≤ k) :
    (o.a = .none → readA erb pi k o = .ok none) ∧ (∀ v, o.a = .val v → readA erb pi k o = .ok (some v)) ∧
    (∀ g v, o.a = .fn g → g (read erb pi 5 o) = .ok v → readA erb pi k o = .ok (some v)) ∧
    (∀ g e, o.a = .fn g → g (read erb pi 5 o) = .error e → readA erb pi k o = .error e) := by
  have : read erb pi k o = read erb pi 5 o := funext fun a => (fixed erb pi o ho).1 k a hk
  refine ⟨?_, ?_, ?_, ?_⟩
  · intro h; simp [readA, h]
  · intro v h; simp [readA, h]
  · intro g v h hv; simp [readA, h, this, hv]
  · intro g e h he; simp [readA, h, this, he]

/-- An assignment that does not concern the leading time. -/
def KeepsTc : Assign K → Prop
  | .tc _ => False
  | .groupDelay _ => False
  | _ => True

theorem assigns_tc (k : Nat) (hist : List (Assign K)) (hh : ∀ s ∈ hist, KeepsTc s) (o o' : Filter K)
    (h : assigns erb pi k o hist = .ok o') : o'.tc = o.tc := by
  induction hist generalizing o with
  | nil => cases h; rfl
  | cons s ss ih =>
    simp only [assigns] at h
    have hs := hh s List.mem_cons_self
    have ih' := fun o => ih (fun s hs => hh s (List.mem_cons_of_mem _ hs)) o
    cases s with
    | tc _ => exact hs.elim
    | groupDelay _ => exact hs.elim
    | f v => exact ih' { o with f := v } h
    | n v => exact ih' { o with n := v } h
    | bandwidth v => exact ih' { o with bandwidth := v } h
    | phi v => exact ih' { o with phi := v } h
    | a v => exact ih' { o with a := v } h

/-- C145: setting the group delay has that effect; as long as the leading time is not set again, later
assignments move the group delay by the change of the raw group delay only. -/
theorem C145_group_delay (o o' o'' : Filter K) (v : K) (hist : List (Assign K)) (k : Nat) (hk : 5 ≤ k)
    (ho : Sound o) (hset : assign erb pi k o (.groupDelay v) = .ok o')
    (hh : ∀ s ∈ hist, KeepsTc s) (hist_ok : assigns erb pi k o' hist = .ok o'') (ho'' : Sound o'') :
    read erb pi k o' .groupDelay = .ok v ∧
    ∃ r, read erb pi k o .rawGroupDelay = .ok r ∧
      ∀ r'', read erb pi k o'' .rawGroupDelay = .ok r'' →
        read erb pi k o'' .groupDelay = .ok (r'' - r + v) := by
  simp only [assign] at hset
  cases hr : read erb pi k o .rawGroupDelay with
  | error e => rw [hr] at hset; simp at hset
  | ok r =>
    rw [hr] at hset
    simp only [Except.ok.injEq] at hset
    have gen : ∀ o₂ : Filter K, Sound o₂ → o₂.tc = .val (r - v) → ∀ r₂,
        read erb pi k o₂ .rawGroupDelay = .ok r₂ →
        read erb pi k o₂ .groupDelay = .ok (r₂ - r + v) := by
      intro o₂ ho₂ ht r₂ h₂
      obtain ⟨hk', hE⟩ := fixed erb pi o₂ ho₂
      rw [hk' k _ hk] at h₂ ⊢
      generalize read erb pi 5 o₂ = E at *
      have h3 : E .tc = .ok (r - v) := by rw [hE, level, ht]; rfl
      rw [hE]
      simp only [level, h₂, h3]
      congr 1
      ring
    have ho' : Sound o' := by
      subst hset
      exact ⟨ho.1, fun g hg => by simp at hg, ho.2.2⟩
    have hraw : read erb pi k o' .rawGroupDelay = .ok r := by
      obtain ⟨hk1, hE1⟩ := fixed erb pi o ho
      obtain ⟨hk2, hE2⟩ := fixed erb pi o' ho'
      rw [hk1 k _ hk] at hr
      rw [hk2 k _ hk]
      have hb : read erb pi 5 o' .bandwidth = read erb pi 5 o .bandwidth := by
        rw [hE1, hE2]
        subst hset
        refine get_congr _ 1 ho.1 _ _ rfl _ _ ?_
        intro a ha
        cases a <;> first | rfl | simp [rank] at ha
      rw [hE1] at hr
      rw [hE2]
      simp only [level, hb] at hr ⊢
      subst hset
      exact hr
    have htc : o'.tc = .val (r - v) := by subst hset; rfl
    refine ⟨by rw [gen o' ho' htc r hraw, sub_self, zero_add], r, rfl, ?_⟩
    exact gen o'' ho'' (by rw [assigns_tc erb pi k hist hh o' o'' hist_ok, htc])

/-- C145: a leading time that is a function of the group delay cannot be read, at any depth, nor can the
group delay or the default phase. -/
theorem C145_circle (o : Filter K) (b : K) (hb : o.bandwidth = .val b) (hb0 : 2 * pi * b ≠ 0)
    (g : (Attr → Except Err K) → Except Err K) (ht : o.tc = .fn g)
    (hg : ∀ env e, env .groupDelay = .error e → g env = .error e) (hp : o.phi = .none) (k : Nat) :
    read erb pi k o .tc = .error .recursion ∧ read erb pi k o .groupDelay = .error .recursion ∧
    read erb pi k o .phi = .error .recursion := by
  have raw : ∀ k, read erb pi k o .rawGroupDelay = .error .recursion ∨
      ∃ r, read erb pi k o .rawGroupDelay = .ok r := by
    intro k
    cases k with
    | zero => exact .inl rfl
    | succ k =>
      cases k with
      | zero => exact .inl rfl
      | succ k => exact .inr ⟨_, by rw [read_succ]; simp only [level, read, hb, Setting.get, divE, if_neg hb0]; rfl⟩
  induction k with
  | zero => exact ⟨rfl, rfl, rfl⟩
  | succ k ih =>
    obtain ⟨h1, h2, -⟩ := ih
    refine ⟨?_, ?_, ?_⟩
    · rw [read_succ, level, ht]
      exact hg _ _ h2
    · rw [read_succ]
      simp only [level, h1]
      rcases raw k with h | ⟨r, h⟩ <;> rw [h]
    · rw [read_succ]
      simp only [level, hp, Setting.get, h1]

/-- A filter with a bandwidth that is half the frequency and a leading time of half the raw delay
(`erb` and π are stand-ins). -/
example :
    let o : Filter ℚ := ⟨100, 4, .fn fun env => (env .f).map (· / 2), .fn fun env =>
      (env .rawGroupDelay).map (· / 2), .none, .none⟩
    Sound o ∧ (read id 3 5 o .bandwidth).toOption = some 50 ∧ (read id 3 5 o .tc).toOption = some (1 / 200) ∧
    (read id 3 5 o .groupDelay).toOption = some (1 / 200) ∧ (read id 3 5 o .phi).toOption = some (-3) ∧
    (assign id 3 5 o (.groupDelay 1)).toOption.isSome ∧
    (((assigns id 3 5 o [.groupDelay 1, .n 7]).toOption.bind fun o' =>
      (read id 3 5 o' .groupDelay).toOption)) = some (101 / 100) := by
  refine ⟨⟨?_, ?_, ?_⟩, by decide +kernel, by decide +kernel, by decide +kernel, by decide +kernel,
    by decide +kernel, by decide +kernel⟩
  · rintro g ⟨⟩ env env' h
    simp only [h .f (by decide)]
  · rintro g ⟨⟩ env env' h
    simp only [h .rawGroupDelay (by decide)]
  · rintro g ⟨⟩

/-- A circle. -/
example : (read (K := ℚ) id 3 1000 ⟨100, 4, .val 50, .fn fun env => env .groupDelay, .none, .none⟩ .tc).toOption =
    none := by
  rw [(C145_circle (K := ℚ) id 3 ⟨100, 4, .val 50, .fn fun env => env .groupDelay, .none, .none⟩ 50 rfl
    (by norm_num) _ rfl (fun _ _ h => h) rfl 1000).1]
  rfl

end Verif.Psycho.Attrs
