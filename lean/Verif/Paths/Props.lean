import Mathlib.Data.List.Basic
import Mathlib.Data.List.TakeWhile
import Mathlib.Tactic.Common
import Verif.Paths.Model

/-!
# C120: names of derived files; C121: files of the user
-/

set_option autoImplicit false
set_option linter.unusedSectionVars false
set_option linter.unusedSimpArgs false

namespace Verif.Paths

theorem splitLast_append (c : Char) (p : Path) : (splitLast c p).1 ++ (splitLast c p).2 = p := by
  induction p with
  | nil => rfl
  | cons x xs ih =>
    simp only [splitLast]
    split
    · split <;> simp
    · simp [ih]

theorem splitLast_rest (c : Char) (p : Path) : c ∉ (splitLast c p).2 := by
  induction p with
  | nil => simp [splitLast]
  | cons x xs ih =>
    simp only [splitLast]
    split
    · rename_i h
      have hx := splitLast_append c xs
      rw [h, List.nil_append] at hx
      rw [hx] at ih
      split
      · exact ih
      · rename_i hc
        simp only [List.mem_cons, not_or]
        exact ⟨fun e => hc e.symm, ih⟩
    · exact ih

theorem splitLast_head (c : Char) (p : Path) : (splitLast c p).1 = [] ∨ ∃ y, (splitLast c p).1 = y ++ [c] := by
  induction p with
  | nil => exact Or.inl rfl
  | cons x xs ih =>
    simp only [splitLast]
    split
    · split
      · rename_i hc
        exact Or.inr ⟨[], by simp [hc]⟩
      · exact Or.inl rfl
    · rename_i h
      rcases ih with ih | ⟨y, ih⟩
      · exact absurd ih h
      · exact Or.inr ⟨x :: y, by simp [ih]⟩

/-- The parts are determined: no `c` after, nothing or a `c` at the end before. -/
theorem splitLast_unique (c : Char) (h t : Path) (ht : c ∉ t) (hh : h = [] ∨ ∃ y, h = y ++ [c]) :
    splitLast c (h ++ t) = (h, t) := by
  induction h with
  | nil =>
    induction t with
    | nil => rfl
    | cons x xs ih =>
      simp only [List.mem_cons, not_or] at ht
      have := ih ht.2
      simp only [List.nil_append] at this ⊢
      simp only [splitLast, this]
      rw [if_pos trivial, if_neg (fun e => ht.1 e.symm)]
  | cons x h ih =>
    obtain ⟨y, hy⟩ : ∃ y, x :: h = y ++ [c] := by
      rcases hh with hh | hh
      · cases hh
      · exact hh
    cases y with
    | nil =>
      simp only [List.nil_append, List.cons.injEq] at hy
      obtain ⟨rfl, rfl⟩ := hy
      have := ih (Or.inl rfl)
      simp only [List.nil_append, List.cons_append] at this ⊢
      simp only [splitLast, this]
      rw [if_pos trivial, if_pos trivial]
    | cons z y =>
      simp only [List.cons_append, List.cons.injEq] at hy
      obtain ⟨rfl, rfl⟩ := hy
      have := ih (Or.inr ⟨y, rfl⟩)
      simp only [List.cons_append]
      simp only [splitLast, this]
      rw [if_neg (by simp)]

/-- What `splitext` returns. -/
structure IsExt (p root ext : Path) : Prop where
  append : root ++ ext = p
  shape : ext = [] ∨ ∃ e, ext = '.' :: e ∧ '.' ∉ e ∧ '/' ∉ e ∧ ∃ x ∈ basename root, x ≠ '.'
  /-- without extension, a dot in the last component is one of the leading dots -/
  none : ext = [] → ∀ d e, basename p = d ++ '.' :: e → '.' ∉ e → ∀ x ∈ d, x = '.'

theorem splitext_spec (p : Path) : IsExt p (splitext p).1 (splitext p).2 := by
  have a1 := splitLast_append '/' p
  have a2 := splitLast_rest '/' p
  have a3 := splitLast_head '/' p
  generalize hd : splitLast '/' p = d at a1 a2 a3
  have b1 := splitLast_append '.' d.2
  have b2 := splitLast_rest '.' d.2
  have b3 := splitLast_head '.' d.2
  generalize hh : splitLast '.' d.2 = h at b1 b2 b3
  have hs : splitext p = if h.1.dropLast.any (· != '.') then (d.1 ++ h.1.dropLast, '.' :: h.2) else (p, []) := by
    simp only [splitext, hd, hh]
  by_cases hc : h.1.dropLast.any (· != '.')
  · rw [if_pos hc] at hs
    have hne : ∃ y, h.1 = y ++ ['.'] := by
      rcases b3 with b3 | b3
      · rw [b3] at hc; simp at hc
      · exact b3
    obtain ⟨y, hy⟩ := hne
    rw [hy, List.dropLast_concat] at hs hc
    rw [hy] at b1
    have hslash : '/' ∉ y := by
      intro hm; apply a2; rw [← b1]; simp [hm]
    have hslash2 : '/' ∉ h.2 := by
      intro hm; apply a2; rw [← b1]; simp [hm]
    have hbase : basename (d.1 ++ y) = y := by rw [basename, splitLast_unique '/' d.1 y hslash a3]
    rw [hs]
    refine ⟨?_, ?_, ?_⟩
    · simp only [List.append_assoc]
      rw [← a1, ← b1]; simp
    · refine Or.inr ⟨h.2, rfl, b2, hslash2, ?_⟩
      simp only [hbase]
      simpa using hc
    · intro hn; cases hn
  · rw [if_neg hc] at hs
    rw [hs]
    refine ⟨by simp, Or.inl rfl, ?_⟩
    intro _ x e hx he z hz
    rw [basename, hd] at hx
    have := splitLast_unique '.' (x ++ ['.']) e he (Or.inr ⟨x, rfl⟩)
    rw [List.append_assoc, List.singleton_append, ← hx, hh] at this
    rw [this] at hc
    simp only [List.dropLast_concat, List.any_eq_true, not_exists, not_and] at hc
    have := hc z hz
    simpa using this

/-- `IsExt` determines the result. -/
theorem isExt_unique (p r e r' e' : Path) (h : IsExt p r e) (h' : IsExt p r' e') : r = r' ∧ e = e' := by
  have key : ∀ r e r' e' : Path, IsExt p r e → IsExt p r' e' → e = [] → e' = [] := by
    intro r e r' e' h h' he
    by_contra hne
    rcases h'.shape with h2 | ⟨w, w1, w2, w3, x, x1, x2⟩
    · exact hne h2
    · have hb : basename p = basename r' ++ '.' :: w := by
        have q := splitLast_unique '/' (splitLast '/' r').1 ((splitLast '/' r').2 ++ '.' :: w)
          (by simp only [List.mem_append, List.mem_cons, not_or]
              exact ⟨splitLast_rest _ _, by decide, w3⟩) (splitLast_head _ _)
        rw [← List.append_assoc, splitLast_append, ← w1, h'.append] at q
        simp only [basename, q, w1]
      exact x2 (h.none he _ _ hb w2 x x1)
  by_cases he : e = []
  · have he' := key r e r' e' h h' he
    refine ⟨?_, by rw [he, he']⟩
    have h1 := h.append
    have h2 := h'.append
    rw [he, List.append_nil] at h1
    rw [he', List.append_nil] at h2
    rw [h1, h2]
  · have he' : e' ≠ [] := fun q => he (key r' e' r e h' h q)
    rcases h.shape with q | ⟨w, w1, w2, -⟩
    · exact absurd q he
    rcases h'.shape with q | ⟨w', w1', w2', -⟩
    · exact absurd q he'
    have u := splitLast_unique '.' (r ++ ['.']) w w2 (Or.inr ⟨r, rfl⟩)
    have u' := splitLast_unique '.' (r' ++ ['.']) w' w2' (Or.inr ⟨r', rfl⟩)
    have h1 := h.append
    have h2 := h'.append
    rw [w1] at h1
    rw [w1'] at h2
    rw [List.append_assoc, List.singleton_append, h1] at u
    rw [List.append_assoc, List.singleton_append, h2, u] at u'
    simp only [Prod.mk.injEq] at u'
    refine ⟨by simpa using u'.1, by rw [w1, w1', u'.2]⟩

theorem basename_append (r s : Path) (hs : '/' ∉ s) : basename (r ++ s) = basename r ++ s := by
  have q := splitLast_unique '/' (splitLast '/' r).1 ((splitLast '/' r).2 ++ s)
    (by simp only [List.mem_append, not_or]; exact ⟨splitLast_rest _ _, hs⟩) (splitLast_head _ _)
  rw [← List.append_assoc, splitLast_append] at q
  simp only [basename, q]

theorem dirname_append (r s : Path) (hs : '/' ∉ s) : dirname (r ++ s) = dirname r := by
  have q := splitLast_unique '/' (splitLast '/' r).1 ((splitLast '/' r).2 ++ s)
    (by simp only [List.mem_append, not_or]; exact ⟨splitLast_rest _ _, hs⟩) (splitLast_head _ _)
  rw [← List.append_assoc, splitLast_append] at q
  simp only [dirname, q]

theorem ext_no_slash (p : Path) : '/' ∉ (splitext p).2 := by
  rcases (splitext_spec p).shape with h | ⟨e, h, -, h2, -⟩
  · rw [h]; simp
  · rw [h]; simp [h2]

theorem basename_splitext (p : Path) : basename p = basename (splitext p).1 ++ (splitext p).2 := by
  have := basename_append (splitext p).1 (splitext p).2 (ext_no_slash p)
  rwa [(splitext_spec p).append] at this

theorem suggestWav_some (p : Path) :
    suggestWav (some p) = basename (splitext p).1 ++ "_resynth".toList := by
  unfold suggestWav fileSafe
  rfl

theorem suggestJson_some (p : Path) : suggestJson (some p) = basename (splitext p).1 := by
  unfold suggestJson fileSafe
  rfl

/-- A text with no dot and no slash, and not empty. -/
structure Infix (s : Path) : Prop where
  nonempty : s ≠ []
  dots : '.' ∉ s
  slashes : '/' ∉ s

/-- C120.  A name made by inserting a text before the extension: the same directory and extension, the text
at the end of the name. -/
theorem C120_parts (s p : Path) (hs : Infix s) :
    dirname (derive s p) = dirname p ∧ splitext (derive s p) = ((splitext p).1 ++ s, (splitext p).2) ∧
    (splitext p).1 ++ (splitext p).2 = p := by
  have hp := splitext_spec p
  have hx := ext_no_slash p
  refine ⟨?_, ?_, hp.append⟩
  · rw [derive, List.append_assoc, dirname_append _ _ (by simp [hs.slashes, hx])]
    conv_rhs => rw [← hp.append, dirname_append _ _ hx]
  · have q : IsExt (derive s p) ((splitext p).1 ++ s) (splitext p).2 := by
      refine ⟨rfl, ?_, ?_⟩
      · rcases hp.shape with h | ⟨e, h1, h2, h3, x, x1, x2⟩
        · exact Or.inl h
        · exact Or.inr ⟨e, h1, h2, h3, x, by rw [basename_append _ _ hs.slashes]; simp [x1], x2⟩
      · intro hn d e hb he z hz
        rw [derive, hn, List.append_nil, basename_append _ _ hs.slashes] at hb
        have hp1 : (splitext p).1 = p := by
          have := hp.append
          rwa [hn, List.append_nil] at this
        rw [hp1] at hb
        -- the dot is in the name of `p`, as the text has none
        have ha1 := splitLast_append '.' (basename p)
        have ha2 := splitLast_rest '.' (basename p)
        rcases splitLast_head '.' (basename p) with ha3 | ⟨y, ha3⟩
        · rw [ha3, List.nil_append] at ha1
          have : '.' ∈ basename p ++ s := by rw [hb]; simp
          rw [← ha1] at this
          simp only [List.mem_append] at this
          rcases this with this | this
          · exact absurd this ha2
          · exact absurd this hs.dots
        · rw [ha3] at ha1
          have u1 := splitLast_unique '.' (y ++ ['.']) ((splitLast '.' (basename p)).2 ++ s)
            (by simp [ha2, hs.dots]) (Or.inr ⟨y, rfl⟩)
          have u2 := splitLast_unique '.' (d ++ ['.']) e he (Or.inr ⟨d, rfl⟩)
          rw [← List.append_assoc, ha1, hb] at u1
          rw [List.append_assoc, List.singleton_append, u1] at u2
          simp only [Prod.mk.injEq] at u2
          have hyd : y = d := by simpa using u2.1
          subst hyd
          exact hp.none hn y (splitLast '.' (basename p)).2 (ha1.symm.trans (by simp)) ha2 z hz
    obtain ⟨q1, q2⟩ := isExt_unique _ _ _ _ _ (splitext_spec (derive s p)) q
    exact Prod.ext q1 q2

/-- C120.  Derived names differ from the name they are derived from, from each other for different texts, and
for different names. -/
theorem C120_distinct (s s' p q : Path) (hs : Infix s) (hs' : Infix s') :
    derive s p ≠ p ∧ (derive s p = derive s' p ↔ s = s') ∧ (derive s p = derive s q ↔ p = q) := by
  refine ⟨?_, ⟨?_, fun h => by rw [h]⟩, ⟨?_, fun h => by rw [h]⟩⟩
  · intro h
    have h1 := (C120_parts s p hs).2.1
    rw [h] at h1
    have h2 := congrArg Prod.fst h1
    simp only [List.self_eq_append_right] at h2
    exact hs.nonempty h2
  · intro h
    simp only [derive, List.append_cancel_right_eq, List.append_cancel_left_eq] at h
    exact h
  · intro h
    have h1 := (C120_parts s p hs).2.1
    have h2 := (C120_parts s q hs).2.1
    rw [h, h2] at h1
    simp only [Prod.mk.injEq, List.append_cancel_right_eq] at h1
    rw [← (splitext_spec p).append, ← (splitext_spec q).append, h1.1, h1.2]

/-- C120.  The texts used by the scripts. -/
theorem C120_texts : Infix "-cropped".toList ∧ Infix "-output".toList ∧ Infix "_r".toList ∧
    "-cropped".toList ≠ "-output".toList := by
  refine ⟨⟨?_, ?_, ?_⟩, ⟨?_, ?_, ?_⟩, ⟨?_, ?_, ?_⟩, ?_⟩ <;> decide +kernel

/-- C120.  The suggested name of a WAV file is a name without directory, and is not the name of the loaded file,
whatever is appended to it. -/
theorem C120_suggest_wav (file x : Path) :
    '/' ∉ suggestWav (some file) ∧ suggestWav (some file) ++ x ≠ basename file := by
  constructor
  · intro h
    simp only [suggestWav_some, List.mem_append] at h
    rcases h with h | h
    · exact splitLast_rest '/' (splitext file).1 h
    · revert h; decide +kernel
  · intro h
    have hb := basename_splitext file
    rw [hb, suggestWav_some, List.append_assoc, List.append_cancel_left_eq] at h
    rcases (splitext_spec file).shape with h2 | ⟨e, h2, -⟩
    · rw [h2] at h; revert h; simp
    · rw [h2] at h
      have := congrArg List.head? h
      revert this; simp

/-- C120.  The suggested name of a JSON file is that of the loaded file exactly if the extension of that file is
appended to it. -/
theorem C120_suggest_json (file x : Path) :
    '/' ∉ suggestJson (some file) ∧
    (suggestJson (some file) ++ x = basename file ↔ x = (splitext file).2) := by
  refine ⟨by rw [suggestJson_some]; exact splitLast_rest '/' (splitext file).1, ?_⟩
  have hb := basename_splitext file
  rw [hb, suggestJson_some, List.append_cancel_left_eq]

example : derive "-cropped".toList "a.b/take.1.wav".toList = "a.b/take.1-cropped.wav".toList ∧
    derive "-output".toList "a.b/take".toList = "a.b/take-output".toList ∧
    suggestWav (some "/home/u/bell.wav".toList) = "bell_resynth".toList ∧
    suggestJson none = "output".toList ∧
    splitext "a/.wav".toList = ("a/.wav".toList, []) := by decide +kernel

example := C120_parts "-cropped".toList "a.b/take.1.wav".toList C120_texts.1
example := C120_distinct "-cropped".toList "-output".toList "a.wav".toList "b.wav".toList C120_texts.1
  C120_texts.2.1

/-! ## C121 -/

theorem rstrip_slash (d : Path) (n : Nat) (hd : d.getLast? ≠ some '/') :
    rstrip (d ++ List.replicate n '/') = d := by
  unfold rstrip
  rw [List.reverse_append, List.reverse_replicate]
  have : ∀ n : Nat, (List.replicate n '/' ++ d.reverse).dropWhile (· == '/') = d.reverse := by
    intro n
    induction n with
    | zero =>
      simp only [List.replicate_zero, List.nil_append]
      cases hr : d.reverse with
      | nil => rfl
      | cons x xs =>
        have : x ≠ '/' := by
          intro e
          apply hd
          rw [List.getLast?_eq_head?_reverse, hr, e]; rfl
        simp [this]
    | succ n ih => simp [List.replicate_succ, ih]
  rw [this, List.reverse_reverse]

/-- C121.  The files of a directory whose name is not empty: for a name without slash, the path is the directory
followed by the name, the folder that is made for it is the directory without slashes at its end (`"/"` stays), and
different names are different files. -/
theorem C121_inside (d s : Path) (hd : d ≠ []) (hs : s ≠ []) (hslash : '/' ∉ s) :
    ∃ p, UserFile.path ⟨⟨some d⟩, some s⟩ = .ok p ∧ UserFile.isValid ⟨⟨some d⟩, some s⟩ = true ∧
      basename p = s ∧
      ∃ q, UserFile.folder ⟨⟨some d⟩, some s⟩ = .ok q ∧ q ≠ [] ∧
        (d.all (· == '/') = true → q = d) ∧
        ∀ (c : Path) (n : Nat), c ≠ [] → c.getLast? ≠ some '/' → d = c ++ List.replicate n '/' → q = c := by
  have hhead : s.head? ≠ some '/' := by
    cases s with
    | nil => simp
    | cons x s =>
      simp only [List.mem_cons, not_or] at hslash
      simp only [List.head?_cons, ne_eq, Option.some.injEq]
      exact fun e => hslash.1 e.symm
  have hpath : ∃ h, join d s = h ++ s ∧ (∃ y, h = y ++ ['/']) ∧ (h = d ∨ h = d ++ ['/'] ∧ d.getLast? ≠ some '/') := by
    unfold join
    rw [if_neg (by simp [hhead, hd])]
    by_cases hl : d.getLast? = some '/'
    · rw [if_pos hl]
      refine ⟨d, rfl, ?_, Or.inl rfl⟩
      obtain ⟨y, hy⟩ := List.getLast?_eq_some_iff.mp hl
      exact ⟨y, hy⟩
    · rw [if_neg hl]
      exact ⟨d ++ ['/'], by simp, ⟨d, rfl⟩, Or.inr ⟨rfl, hl⟩⟩
  obtain ⟨h, h1, h2, h3⟩ := hpath
  have hu := splitLast_unique '/' h s hslash (Or.inr h2)
  rw [← h1] at hu
  have hfold : UserFile.folder ⟨⟨some d⟩, some s⟩ = .ok (if h.all (· == '/') then h else rstrip h) := by
    simp only [UserFile.folder, UserFile.path, dirname, hu]
  refine ⟨join d s, rfl, ?_, ?_, _, hfold, ?_, ?_, ?_⟩
  · simp only [UserFile.isValid, UserDir.isValid, Bool.and_eq_true, decide_eq_true_eq]
    exact ⟨List.length_pos_of_ne_nil hd, List.length_pos_of_ne_nil hs⟩
  · rw [basename, hu]
  · split
    · obtain ⟨y, hy⟩ := h2
      rw [hy]; simp
    · rename_i hall
      intro hc
      apply hall
      simp only [rstrip, List.reverse_eq_nil_iff, List.dropWhile_eq_nil_iff] at hc
      simp only [List.all_eq_true]
      intro x hx
      exact hc x (by simpa using hx)
  · intro hall
    rcases h3 with h3 | ⟨h3, h4⟩
    · rw [h3, if_pos hall]
    · exfalso
      apply h4
      have hlast := List.getLast?_eq_some_getLast hd
      rw [hlast]
      have := List.all_eq_true.mp hall _ (List.getLast_mem hd)
      simp only [beq_iff_eq] at this
      rw [this]
  · intro c n hc hcl hdc
    have hall : ¬ h.all (· == '/') = true := by
      intro hall
      have hmem : ∀ x ∈ c, x ∈ h := by
        intro x hx
        rcases h3 with h3 | ⟨h3, -⟩ <;> rw [h3, hdc] <;> simp [hx]
      apply hcl
      rw [List.getLast?_eq_some_getLast hc]
      have := List.all_eq_true.mp hall _ (hmem _ (List.getLast_mem hc))
      simp only [beq_iff_eq] at this
      rw [this]
    rw [if_neg hall]
    rcases h3 with h3 | ⟨h3, -⟩
    · rw [h3, hdc, rstrip_slash _ _ hcl]
    · rw [h3, hdc, List.append_assoc, ← List.replicate_succ', rstrip_slash _ _ hcl]

/-- C121.  Without a directory (`None` or empty) no file is valid or present, and nothing is raised; asking for the
path of such a file raises only if it is `None`. -/
theorem C121_invalid (isfile : Path → Bool) (d s : Option Path) (h : d = none ∨ d = some [] ∨ s = none ∨ s = some []) :
    UserFile.isValid ⟨⟨d⟩, s⟩ = false ∧ UserFile.present isfile ⟨⟨d⟩, s⟩ = .ok false := by
  have hv : UserFile.isValid ⟨⟨d⟩, s⟩ = false := by
    rcases h with h | h | h | h <;> subst h
    · rfl
    · rfl
    · simp [UserFile.isValid]
    · simp [UserFile.isValid]
  exact ⟨hv, by simp [UserFile.present, hv]⟩

/-- C121.  A valid file is present exactly if its path is a file. -/
theorem C121_present (isfile : Path → Bool) (f : UserFile) (h : f.isValid = true) :
    ∃ p, f.path = .ok p ∧ f.present isfile = .ok (isfile p) := by
  obtain ⟨⟨d⟩, s⟩ := f
  cases d with
  | none => simp [UserFile.isValid, UserDir.isValid] at h
  | some d =>
    cases s with
    | none => simp [UserFile.isValid] at h
    | some s => exact ⟨join d s, rfl, by simp [UserFile.present, h, UserFile.path]⟩

/-- C121.  The evaluation script makes the directory of the results first; it fails exactly for results without
directory in their name or for an empty name of the WAV directory. -/
theorem C121_prepare (o w l : Option Path) :
    (prepareFolders o w l = none ↔ (∃ p, o = some p ∧ '/' ∉ p) ∨ w = some []) ∧
    ∀ r, prepareFolders o w l = some r →
      r.1 = (o.map dirname).toList ++ w.toList ∧ r.2.1 = w.map (fun w => join w "{:.0f}.wav".toList) ∧
      r.2.2 = l.map fun l => join l "{:.0f}.log".toList := by
  have hdir : ∀ p : Path, dirname p = [] ↔ '/' ∉ p := by
    intro p
    constructor
    · intro h hm
      rcases splitLast_head '/' p with h1 | ⟨y, h1⟩
      · have := splitLast_append '/' p
        rw [h1, List.nil_append] at this
        exact splitLast_rest '/' p (by rw [this]; exact hm)
      · simp only [dirname, h1] at h
        split at h
        · simp at h
        · rename_i hall
          apply hall
          simp only [rstrip, List.reverse_eq_nil_iff, List.dropWhile_eq_nil_iff] at h
          simp only [List.all_eq_true]
          intro x hx
          exact h x (List.mem_reverse.mpr hx)
    · intro h
      have := splitLast_unique '/' [] p h (Or.inl rfl)
      rw [List.nil_append] at this
      simp [dirname, this]
  cases o with
  | none =>
    cases w with
    | none => simp [prepareFolders]
    | some w =>
      by_cases hw : w = []
      · subst hw; simp [prepareFolders, makedirs]
      · simp [prepareFolders, makedirs, hw]
  | some o =>
    by_cases ho : '/' ∈ o
    · have ho' : dirname o ≠ [] := fun h => (hdir o).mp h ho
      cases w with
      | none => simp [prepareFolders, makedirs, ho', ho]
      | some w =>
        by_cases hw : w = []
        · subst hw; simp [prepareFolders, makedirs, ho', ho]
        · simp [prepareFolders, makedirs, hw, ho', ho]
    · have ho' : dirname o = [] := (hdir o).mpr ho
      simp [prepareFolders, makedirs, ho', ho]

example : UserFile.path ⟨⟨some "/home/u/.lim-sample".toList⟩, some "settings.json".toList⟩ =
    .ok "/home/u/.lim-sample/settings.json".toList ∧
    UserFile.folder ⟨⟨some "conf//".toList⟩, some "audio.cache".toList⟩ = .ok "conf".toList :=
  ⟨rfl, rfl⟩

example := C121_inside "/home/u/.lim-sample".toList "settings.json".toList (by decide +kernel) (by decide +kernel) (by decide +kernel)

example : prepareFolders (some "results".toList) none none = none ∧
    prepareFolders (some "out/results".toList) (some "wav".toList) none =
      some (["out".toList, "wav".toList], some "wav/{:.0f}.wav".toList, none) := by decide +kernel

end Verif.Paths
