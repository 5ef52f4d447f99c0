import Mathlib.Tactic.Ring
import Verif.Out.WebAudioModel

/-!
# C167: audio on a page of a notebook
-/

set_option autoImplicit false
set_option linter.unusedSectionVars false
set_option linter.unusedSimpArgs false

namespace Verif.Out

/-! ## Specification: templates in pieces -/

/-- A piece of a template: text that is to appear as it is, or the name of a value. -/
inductive Piece
  | text (l : List Char)
  | field (name : List Char)

/-- How a piece is written in a template: braces of the text are doubled. -/
def Piece.source : Piece → List Char
  | .text l => l.flatMap fun c => if c = '{' ∨ c = '}' then [c, c] else [c]
  | .field name => '{' :: name ++ ['}']

/-- What a piece is to become. -/
def Piece.result (v : List Char → List Char) : Piece → List Char
  | .text l => l
  | .field name => v name

/-- A name without braces. -/
def Piece.plain : Piece → Prop
  | .text _ => True
  | .field name => name ≠ [] ∧ '{' ∉ name ∧ '}' ∉ name

/-! ## The channels -/

/-- C167: an array with one axis is one channel with all its samples, even if it has none. -/
theorem C167_mono {α : Type} (n : Nat) (data : List α) :
    webChannels ⟨[n], data⟩ = .ok [data] := by
  simp [webChannels, reshapeRows, Nat.mod_one]

theorem chunks_flatten {α : Type} (n : Nat) : ∀ (c : Nat) (data : List α), data.length = c * n →
    ((List.range c).map fun i => (data.drop (i * n)).take n).flatten = data := by
  intro c
  induction c with
  | zero => intro data h; simp at h; simp [h]
  | succ c ih =>
    intro data h
    rw [List.range_succ, List.map_append, List.flatten_append]
    have h1 := ih (data.take (c * n)) (by rw [List.length_take, h]; exact Nat.min_eq_left (Nat.mul_le_mul_right n (Nat.le_succ c)))
    have h2 : ((List.range c).map fun i => (data.drop (i * n)).take n) =
        (List.range c).map fun i => ((data.take (c * n)).drop (i * n)).take n := by
      apply List.map_congr_left
      intro i hi
      have hi := List.mem_range.1 hi
      rw [List.drop_take, List.take_take]
      congr 1
      have : (i + 1) * n ≤ c * n := Nat.mul_le_mul_right n hi
      have e : (i + 1) * n = i * n + n := by ring
      omega
    rw [h2, h1]
    simp only [List.map_cons, List.map_nil, List.flatten_cons, List.flatten_nil, List.append_nil]
    have h3 : (data.drop (c * n)).take n = data.drop (c * n) := by
      apply List.take_of_length_le
      rw [List.length_drop, h]
      have e : (c + 1) * n = c * n + n := by ring
      omega
    rw [h3, List.take_append_drop]

/-- C167: an array with two axes or more, the first of size `c ≥ 1`, gives `c` channels, each with the elements of
one index of the first axis in their order: one after the other they are the whole array, and sample `j` of channel
`i` is the element `i * n + j`, where `n` is the number of elements for one index. -/
theorem C167_channels {α : Type} (c : Nat) (hc : 1 ≤ c) (d : Nat) (rest : List Nat) (data : List α)
    (h : data.length = c * (d :: rest).prod) :
    ∃ rows, webChannels ⟨c :: d :: rest, data⟩ = .ok rows ∧ rows.length = c ∧ rows.flatten = data ∧
      (∀ r ∈ rows, r.length = (d :: rest).prod) ∧
      ∀ i j : Nat, i < c → j < (d :: rest).prod →
        (rows[i]?.bind fun r => r[j]?) = data[i * (d :: rest).prod + j]? := by
  generalize (d :: rest).prod = n at h ⊢
  have hdiv : data.length / c = n := by rw [h]; exact Nat.mul_div_cancel_left n hc
  have hmod : data.length % c = 0 := by rw [h]; exact Nat.mul_mod_right c n
  refine ⟨(List.range c).map fun i => (data.drop (i * n)).take n, ?_, by simp, chunks_flatten n c data h, ?_, ?_⟩
  · simp only [webChannels, reshapeRows, hdiv, hmod]
    rw [if_neg (by omega)]
    simp
  · intro r hr
    obtain ⟨i, hi, rfl⟩ := List.mem_map.1 hr
    have hi := List.mem_range.1 hi
    rw [List.length_take, List.length_drop, h]
    have : (i + 1) * n ≤ c * n := Nat.mul_le_mul_right n hi
    have e : (i + 1) * n = i * n + n := by ring
    omega
  · intro i j hi hj
    rw [List.getElem?_map, List.getElem?_range hi]
    simp only [Option.map_some, Option.bind_some]
    rw [List.getElem?_take_of_lt hj, List.getElem?_drop]

/-- C167, refused: a single number is an `IndexError`; an array of two axes or more without channels is a
`ValueError`. -/
theorem C167_refused {α : Type} (x : α) (d : Nat) (rest : List Nat) :
    webChannels ⟨[], [x]⟩ = .error .indexError ∧
    webChannels (⟨0 :: d :: rest, []⟩ : Samples α) = .error .valueError := by
  constructor
  · rfl
  · simp [webChannels, reshapeRows]

/-- C167, the axes exchanged: samples of `c` channels as an array of shape `(n, c)` are read as `n` channels of `c`
samples, without an exception. -/
theorem C167_exchanged {α : Type} (n c : Nat) (hn : 1 ≤ n) (data : List α) (h : data.length = n * c) :
    ∃ rows, webChannels ⟨[n, c], data⟩ = .ok rows ∧ rows.length = n ∧ ∀ r ∈ rows, r.length = c := by
  obtain ⟨rows, h1, h2, -, h3, -⟩ := C167_channels n hn c [] data (by simpa using h)
  exact ⟨rows, h1, h2, fun r hr => by simpa using h3 r hr⟩

/-! ## The page -/

theorem format_text (vals : List Char → Option (List Char)) (l : List Char) : ∀ (m : Nat) (t : List Char),
    (Piece.text l).source.length + t.length < m → ∃ m', t.length < m' ∧
      formatF vals m ((Piece.text l).source ++ t) = (formatF vals m' t).map (l ++ ·) := by
  induction l with
  | nil =>
    intro m t h
    refine ⟨m, by simpa [Piece.source] using h, ?_⟩
    simp only [Piece.source, List.flatMap_nil, List.nil_append]
    cases formatF vals m t <;> rfl
  | cons c l ih =>
    intro m t h
    obtain ⟨m, rfl⟩ : ∃ k, m = k + 1 := ⟨m - 1, by omega⟩
    by_cases hb : c = '{' ∨ c = '}'
    · have hs : (Piece.text (c :: l)).source = c :: c :: (Piece.text l).source := by
        simp [Piece.source, hb]
      rw [hs] at h ⊢
      obtain ⟨m', q1, q2⟩ := ih m t (by simp at h; omega)
      refine ⟨m', q1, ?_⟩
      rcases hb with rfl | rfl
      · simp only [List.cons_append, formatF, if_true]
        rw [q2]
        cases formatF vals m' t <;> rfl
      · simp only [List.cons_append, formatF, if_true]
        rw [if_neg (by decide), q2]
        cases formatF vals m' t <;> rfl
    · have hs : (Piece.text (c :: l)).source = c :: (Piece.text l).source := by
        simp [Piece.source, hb]
      rw [not_or] at hb
      rw [hs] at h ⊢
      obtain ⟨m', q1, q2⟩ := ih m t (by simp at h; omega)
      refine ⟨m', q1, ?_⟩
      simp only [List.cons_append, formatF]
      rw [if_neg hb.1, if_neg hb.2, q2]
      cases formatF vals m' t <;> rfl

theorem span_name (name t : List Char) (h : '}' ∉ name) :
    (name ++ '}' :: t).dropWhile (· ≠ '}') = '}' :: t ∧ (name ++ '}' :: t).takeWhile (· ≠ '}') = name := by
  induction name with
  | nil => simp
  | cons a l ih =>
    rw [List.mem_cons, not_or] at h
    obtain ⟨i1, i2⟩ := ih h.2
    have ha : a ≠ '}' := fun e => h.1 e.symm
    constructor
    · rw [List.cons_append, List.dropWhile_cons_of_pos (by simpa using ha), i1]
    · rw [List.cons_append, List.takeWhile_cons_of_pos (by simpa using ha), i2]

theorem format_field (vals : List Char → Option (List Char)) (name v : List Char) (hv : vals name = some v)
    (hn : (Piece.field name).plain) (m : Nat) (t : List Char)
    (h : (Piece.field name).source.length + t.length < m) : ∃ m', t.length < m' ∧
      formatF vals m ((Piece.field name).source ++ t) = (formatF vals m' t).map (v ++ ·) := by
  obtain ⟨m, rfl⟩ : ∃ k, m = k + 1 := ⟨m - 1, by omega⟩
  refine ⟨m, by simp [Piece.source] at h; omega, ?_⟩
  obtain ⟨n1, n2, n3⟩ := hn
  cases name with
  | nil => exact absurd rfl n1
  | cons a l =>
    have ha : a ≠ '{' := fun e => n2 (by simp [e])
    obtain ⟨s1, s2⟩ := span_name (a :: l) t n3
    rw [List.cons_append] at s1 s2
    have hs : (Piece.field (a :: l)).source ++ t = '{' :: a :: (l ++ '}' :: t) := by simp [Piece.source]
    rw [hs]
    simp only [formatF, if_true]
    rw [if_neg ha, s1, s2, hv]

/-- C167, templates: for every sequence of texts and names of values, in which braces of the texts are doubled and
names have none: every text appears as it is, every value in the place of its name, once and without being looked
into (braces in a value stay). -/
theorem C167_format (vals : List Char → Option (List Char)) (v : List Char → List Char) (ps : List Piece)
    (hp : ∀ p ∈ ps, p.plain) (hv : ∀ name, Piece.field name ∈ ps → vals name = some (v name)) :
    format vals (ps.flatMap Piece.source) = .ok (ps.flatMap (Piece.result v)) := by
  have key : ∀ (ps : List Piece), (∀ p ∈ ps, p.plain) →
      (∀ name, Piece.field name ∈ ps → vals name = some (v name)) → ∀ m, (ps.flatMap Piece.source).length < m →
      formatF vals m (ps.flatMap Piece.source) = .ok (ps.flatMap (Piece.result v)) := by
    intro ps
    induction ps with
    | nil =>
      intro _ _ m h
      obtain ⟨m, rfl⟩ : ∃ k, m = k + 1 := ⟨m - 1, by omega⟩
      rfl
    | cons p ps ih =>
      intro hp hv m h
      rw [List.flatMap_cons] at h ⊢
      rw [List.length_append] at h
      have hi := ih (fun q hq => hp q (by simp [hq])) (fun n hn => hv n (by simp [hn]))
      cases p with
      | text l =>
        obtain ⟨m', q1, q2⟩ := format_text vals l m _ h
        rw [q2, hi m' q1]
        rfl
      | field name =>
        obtain ⟨m', q1, q2⟩ := format_field vals name (v name) (hv name (by simp)) (hp _ (by simp)) m _ h
        rw [q2, hi m' q1]
        rfl
  exact key ps hp hv _ (Nat.lt_succ_self _)

/-- C167, a value that is missing: if the first name without a value stands after texts and names with values, the
result is a `KeyError`. -/
theorem C167_missing (vals : List Char → Option (List Char)) (v : List Char → List Char) (ps : List Piece)
    (hp : ∀ p ∈ ps, p.plain) (hv : ∀ name, Piece.field name ∈ ps → vals name = some (v name)) (name : List Char)
    (hn : (Piece.field name).plain) (hno : vals name = none) (t : List Char) :
    format vals (ps.flatMap Piece.source ++ ((Piece.field name).source ++ t)) = .error .keyError := by
  have key : ∀ (ps : List Piece), (∀ p ∈ ps, p.plain) →
      (∀ name, Piece.field name ∈ ps → vals name = some (v name)) → ∀ m,
      (ps.flatMap Piece.source ++ ((Piece.field name).source ++ t)).length < m →
      formatF vals m (ps.flatMap Piece.source ++ ((Piece.field name).source ++ t)) = .error .keyError := by
    intro ps
    induction ps with
    | nil =>
      intro _ _ m h
      obtain ⟨m, rfl⟩ : ∃ k, m = k + 1 := ⟨m - 1, by omega⟩
      obtain ⟨n1, n2, n3⟩ := hn
      cases name with
      | nil => exact absurd rfl n1
      | cons a l =>
        have ha : a ≠ '{' := fun e => n2 (by simp [e])
        obtain ⟨s1, s2⟩ := span_name (a :: l) t n3
        rw [List.cons_append] at s1 s2
        have hs : [].flatMap Piece.source ++ ((Piece.field (a :: l)).source ++ t) =
            '{' :: a :: (l ++ '}' :: t) := by simp [Piece.source]
        rw [hs]
        simp only [formatF, if_true]
        rw [if_neg ha, s1, s2, hno]
    | cons p ps ih =>
      intro hp hv m h
      rw [List.flatMap_cons, List.append_assoc] at h ⊢
      rw [List.length_append] at h
      have hi := ih (fun q hq => hp q (by simp [hq])) (fun n hn => hv n (by simp [hn]))
      cases p with
      | text l =>
        obtain ⟨m', q1, q2⟩ := format_text vals l m _ h
        rw [q2, hi m' q1]
        rfl
      | field name =>
        obtain ⟨m', q1, q2⟩ := format_field vals name (v name) (hv name (by simp)) (hp _ (by simp)) m _ h
        rw [q2, hi m' q1]
        rfl
  exact key ps hp hv _ (Nat.lt_succ_self _)

/-- C167, the page: with a template of texts and the fields `x`, `rate` and `label`, the page of an array with `c ≥ 1`
channels of `n` samples has, in the place of `x`, the JSON text of its channels, and the rate and the label as they
are given (the label is not escaped for HTML). -/
theorem C167_page {α : Type} (json : List (List α) → List Char) (c : Nat) (hc : 1 ≤ c) (n : Nat) (data : List α)
    (h : data.length = c * n) (rate label : List Char) (ps : List Piece)
    (hp : ∀ p ∈ ps, (∃ l, p = .text l) ∨ p = .field "x".toList ∨ p = .field "rate".toList ∨
      p = .field "label".toList) :
    ∃ rows, rows.length = c ∧ (∀ r ∈ rows, r.length = n) ∧ rows.flatten = data ∧
      webPage (ps.flatMap Piece.source) json ⟨[c, n], data⟩ rate label =
        .ok (ps.flatMap fun p => match p with
          | .text l => l
          | .field name => if name = "x".toList then json rows else if name = "rate".toList then rate else label) := by
  obtain ⟨rows, h1, h2, h3, h4, -⟩ := C167_channels c hc n [] data (by simpa using h)
  refine ⟨rows, h2, fun r hr => by simpa using h4 r hr, h3, ?_⟩
  simp only [webPage, h1, bind, Except.bind]
  rw [C167_format _ (fun name => if name = "x".toList then json rows else if name = "rate".toList then rate
    else label) ps ?_ ?_]
  · congr 1
  · intro p hq
    rcases hp p hq with ⟨l, rfl⟩ | rfl | rfl | rfl
    · trivial
    · exact ⟨by decide, by decide, by decide⟩
    · exact ⟨by decide, by decide, by decide⟩
    · exact ⟨by decide, by decide, by decide⟩
  · intro name hq
    rcases hp _ hq with ⟨l, e⟩ | e | e | e
    · cases e
    · injection e with e
      subst e
      rfl
    · injection e with e
      subst e
      rfl
    · injection e with e
      subst e
      rfl

/-- Two channels of three samples. -/
example : (webChannels ⟨[2, 3], [1, 2, 3, 4, 5, 6]⟩).toOption = some [[1, 2, 3], [4, 5, 6]] := by decide +kernel

/-- The last line of `sample/web_audio.html` in short, with a label that has braces. -/
example : (webPage "if (a) {{ b }} play({x}, {rate})>{label}".toList (fun _ => "[]".toList) ⟨[1], [0]⟩ "8".toList
    "{x}".toList).toOption = some "if (a) { b } play([], 8)>{x}".toList := by decide +kernel

end Verif.Out
