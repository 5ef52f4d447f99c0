import Mathlib.Algebra.Field.Rat
import Verif.Out.TimerModel

/-!
# C172: timing of code in a notebook
-/

set_option autoImplicit false
set_option linter.unusedSectionVars false
set_option linter.unusedSimpArgs false

namespace Verif.Timer

/-- How a text is written in a template. -/
def escaped (l : List Char) : List Char := l.flatMap fun c => if c = '{' ∨ c = '}' then [c, c] else [c]

theorem format_text (v : List Char) (n : Numbering) (l : List Char) : ∀ (m : Nat) (t : List Char),
    (escaped l ++ t).length < m →
      ∃ m', t.length < m' ∧ formatF v m n (escaped l ++ t) = (formatF v m' n t).map (l ++ ·) := by
  induction l with
  | nil =>
    intro m t h
    refine ⟨m, by simpa [escaped] using h, ?_⟩
    simp only [escaped, List.flatMap_nil, List.nil_append]
    cases formatF v m n t <;> rfl
  | cons c l ih =>
    intro m t h
    obtain ⟨m, rfl⟩ : ∃ k, m = k + 1 := ⟨m - 1, by omega⟩
    have hc : escaped (c :: l) = (if c = '{' ∨ c = '}' then [c, c] else [c]) ++ escaped l := by simp [escaped]
    rw [hc] at h ⊢
    by_cases h1 : c = '{'
    · subst h1
      simp only [true_or, if_true, List.cons_append, List.nil_append, List.length_cons] at h ⊢
      obtain ⟨m', q1, q2⟩ := ih m t (by omega)
      refine ⟨m', q1, ?_⟩
      simp only [formatF, if_true, q2]
      cases formatF v m' n t <;> rfl
    · by_cases h2 : c = '}'
      · subst h2
        simp only [or_true, if_true, List.cons_append, List.nil_append, List.length_cons] at h ⊢
        obtain ⟨m', q1, q2⟩ := ih m t (by omega)
        refine ⟨m', q1, ?_⟩
        simp only [formatF, h1, if_false, if_true, q2]
        cases formatF v m' n t <;> rfl
      · simp only [h1, h2, or_false, if_false, List.cons_append, List.nil_append, List.length_cons] at h ⊢
        obtain ⟨m', q1, q2⟩ := ih m t (by omega)
        refine ⟨m', q1, ?_⟩
        simp only [formatF, h1, h2, if_false, q2]
        cases formatF v m' n t <;> rfl

theorem format_field (v : List Char) (n : Numbering) (m : Nat) (t : List Char) :
    formatF v (m + 1) n ('{' :: '}' :: t) =
      match fieldValue v [] n with
      | .error e => .error e
      | .ok (x, n') => (formatF v m n' t).map (x ++ ·) := by
  simp [formatF]
  rcases fieldValue v [] n with e | ⟨x, n'⟩ <;> rfl

/-- C172.  A message without a field stays as it is, with doubled braces made single. -/
theorem C172_plain (l v : List Char) : formatMsg (escaped l) v = .ok l := by
  obtain ⟨m', q1, q2⟩ := format_text v .unset l ((escaped l).length + 1) [] (by simp)
  rw [List.append_nil] at q2
  rw [formatMsg, q2]
  obtain ⟨m', rfl⟩ : ∃ k, m' = k + 1 := ⟨m' - 1, by omega⟩
  simp [formatF, Except.map]

/-- C172.  A message with one field, as the default, has the value in its place. -/
theorem C172_message (l r v : List Char) : formatMsg (escaped l ++ '{' :: '}' :: escaped r) v = .ok (l ++ v ++ r) := by
  obtain ⟨m, q1, q2⟩ := format_text v .unset l ((escaped l ++ '{' :: '}' :: escaped r).length + 1)
    ('{' :: '}' :: escaped r) (by simp)
  rw [formatMsg, q2]
  simp only [List.length_cons] at q1
  obtain ⟨m, rfl⟩ : ∃ k, m = k + 1 := ⟨m - 1, by omega⟩
  rw [format_field]
  obtain ⟨m', q3, q4⟩ := format_text v (.auto 1) r m [] (by simp; omega)
  rw [List.append_nil] at q4
  obtain ⟨m', rfl⟩ : ∃ k, m' = k + 1 := ⟨m' - 1, by omega⟩
  simp [fieldValue, q4, formatF, Except.map]

/-- The default message. -/
example : "Execution time: {}".toList = escaped "Execution time: ".toList ++ '{' :: '}' :: escaped [] := by decide +kernel

/-- C172.  A second field is an `IndexError`, whatever follows. -/
theorem C172_two (l mid v t : List Char) :
    formatMsg (escaped l ++ '{' :: '}' :: (escaped mid ++ '{' :: '}' :: t)) v = .error .indexError := by
  obtain ⟨m, q1, q2⟩ := format_text v .unset l
    ((escaped l ++ '{' :: '}' :: (escaped mid ++ '{' :: '}' :: t)).length + 1)
    ('{' :: '}' :: (escaped mid ++ '{' :: '}' :: t)) (by simp)
  rw [formatMsg, q2]
  simp only [List.length_cons] at q1
  obtain ⟨m, rfl⟩ : ∃ k, m = k + 1 := ⟨m - 1, by omega⟩
  rw [format_field]
  obtain ⟨m', q3, q4⟩ := format_text v (.auto 1) mid m ('{' :: '}' :: t) (by omega)
  simp only [List.length_cons] at q3
  obtain ⟨m', rfl⟩ : ∃ k, m' = k + 1 := ⟨m' - 1, by omega⟩
  rw [format_field] at q4
  simp [fieldValue, q4, Except.map]

theorem format_zero (v : List Char) (n : Numbering) (m : Nat) (t : List Char) :
    formatF v (m + 1) n ('{' :: '0' :: '}' :: t) =
      match fieldValue v ['0'] n with
      | .error e => .error e
      | .ok (x, n') => (formatF v m n' t).map (x ++ ·) := by
  simp [formatF]
  rcases fieldValue v ['0'] n with e | ⟨x, n'⟩ <;> rfl

theorem zero_ok (v : List Char) (n : Numbering) (hn : ∀ k, n ≠ .auto k) :
    fieldValue v ['0'] n = .ok (v, .manual) := by
  have h1 : (['0'].all Char.isDigit) = true := by decide
  have h2 : (['0'].all (fun c => decide (c = '0'))) = true := by decide
  cases n with
  | auto k => exact absurd rfl (hn k)
  | unset => simp [fieldValue, h1]
  | manual => simp [fieldValue, h1]

/-- C172.  Numbered fields `{0}` may be used any number of times; each has the value. -/
theorem C172_numbered (l v : List Char) (ts : List (List Char)) :
    formatMsg (escaped l ++ ts.flatMap fun t => '{' :: '0' :: '}' :: escaped t) v =
      .ok (l ++ ts.flatMap fun t => v ++ t) := by
  have key : ∀ (ts : List (List Char)) (l : List Char) (n : Numbering), (∀ k, n ≠ .auto k) → ∀ m,
      (escaped l ++ ts.flatMap fun t => '{' :: '0' :: '}' :: escaped t).length < m →
      formatF v m n (escaped l ++ ts.flatMap fun t => '{' :: '0' :: '}' :: escaped t) =
        .ok (l ++ ts.flatMap fun t => v ++ t) := by
    intro ts
    induction ts with
    | nil =>
      intro l n hn m h
      obtain ⟨m', q1, q2⟩ := format_text v n l m _ h
      rw [q2]
      obtain ⟨m', rfl⟩ : ∃ k, m' = k + 1 := ⟨m' - 1, by omega⟩
      simp [formatF, Except.map]
    | cons t ts ih =>
      intro l n hn m h
      obtain ⟨m', q1, q2⟩ := format_text v n l m _ h
      rw [q2]
      simp only [List.flatMap_cons, List.cons_append, List.length_cons] at q1 ⊢
      obtain ⟨m', rfl⟩ : ∃ k, m' = k + 1 := ⟨m' - 1, by omega⟩
      rw [format_zero, zero_ok v n hn]
      simp only
      rw [ih t .manual (by intro k hk; cases hk) m' (by omega)]
      simp [Except.map]
  exact key ts l .unset (by intro k hk; cases hk) _ (by omega)

/-- C172.  Numbered and unnumbered fields must not be mixed. -/
theorem C172_mixed (l mid v t : List Char) :
    formatMsg (escaped l ++ '{' :: '}' :: (escaped mid ++ '{' :: '0' :: '}' :: t)) v = .error .valueError := by
  obtain ⟨m, q1, q2⟩ := format_text v .unset l
    ((escaped l ++ '{' :: '}' :: (escaped mid ++ '{' :: '0' :: '}' :: t)).length + 1)
    ('{' :: '}' :: (escaped mid ++ '{' :: '0' :: '}' :: t)) (by simp)
  rw [formatMsg, q2]
  simp only [List.length_cons] at q1
  obtain ⟨m, rfl⟩ : ∃ k, m = k + 1 := ⟨m - 1, by omega⟩
  rw [format_field]
  obtain ⟨m', q3, q4⟩ := format_text v (.auto 1) mid m ('{' :: '0' :: '}' :: t) (by omega)
  simp only [List.length_cons] at q3
  obtain ⟨m', rfl⟩ : ∃ k, m' = k + 1 := ⟨m' - 1, by omega⟩
  rw [format_zero] at q4
  have h1 : (['0'].all Char.isDigit) = true := by decide
  simp [fieldValue, q4, Except.map]

/-- C172.  Nor in the other order. -/
theorem C172_mixed_after (l mid v t : List Char) :
    formatMsg (escaped l ++ '{' :: '0' :: '}' :: (escaped mid ++ '{' :: '}' :: t)) v = .error .valueError := by
  obtain ⟨m, q1, q2⟩ := format_text v .unset l
    ((escaped l ++ '{' :: '0' :: '}' :: (escaped mid ++ '{' :: '}' :: t)).length + 1)
    ('{' :: '0' :: '}' :: (escaped mid ++ '{' :: '}' :: t)) (by simp)
  rw [formatMsg, q2]
  simp only [List.length_cons] at q1
  obtain ⟨m, rfl⟩ : ∃ k, m = k + 1 := ⟨m - 1, by omega⟩
  rw [format_zero, zero_ok v .unset (by intro k hk; cases hk)]
  obtain ⟨m', q3, q4⟩ := format_text v .manual mid m ('{' :: '}' :: t) (by omega)
  simp only [List.length_cons] at q3
  obtain ⟨m', rfl⟩ : ∃ k, m' = k + 1 := ⟨m' - 1, by omega⟩
  rw [format_field] at q4
  simp [fieldValue, q4, Except.map]

/-- C172.  A name is a `KeyError`. -/
theorem C172_name (l v name t : List Char) (h1 : '}' ∉ name) (h2 : name.head? ≠ some '{')
    (h3 : ¬ name.all Char.isDigit = true) :
    formatMsg (escaped l ++ '{' :: (name ++ '}' :: t)) v = .error .keyError := by
  obtain ⟨m, q1, q2⟩ := format_text v .unset l ((escaped l ++ '{' :: (name ++ '}' :: t)).length + 1)
    ('{' :: (name ++ '}' :: t)) (by simp)
  rw [formatMsg, q2]
  obtain ⟨m, rfl⟩ : ∃ k, m = k + 1 := ⟨m - 1, by omega⟩
  cases name with
  | nil => simp at h3
  | cons a name =>
    have ha : a ≠ '{' := by simpa using h2
    have hp : ∀ c ∈ a :: name, (decide (c ≠ '}')) = true := by
      intro c hc
      exact decide_eq_true fun e => h1 (e ▸ hc)
    have e1 : ((a :: name) ++ '}' :: t).takeWhile (· ≠ '}') = a :: name := by
      rw [List.takeWhile_append_of_pos hp]; simp
    have e2 : ((a :: name) ++ '}' :: t).dropWhile (· ≠ '}') = '}' :: t := by
      rw [List.dropWhile_append_of_pos hp]; simp
    rw [List.cons_append] at e1 e2 ⊢
    simp only [formatF, if_true, ha, if_false, e1, e2]
    have : fieldValue v (a :: name) .unset = .error .keyError := by
      unfold fieldValue
      rw [if_neg (by simp), if_neg h3]
    rw [this]
    rfl

example : '}' ∉ "time".toList ∧ "time".toList.head? ≠ some '{' ∧ ¬ "time".toList.all Char.isDigit = true := by
  decide +kernel

/-- C172.  A single closing brace after any text is a `ValueError`. -/
theorem C172_brace (l v t : List Char) (ht : t.head? ≠ some '}') :
    formatMsg (escaped l ++ '}' :: t) v = .error .valueError := by
  obtain ⟨m, q1, q2⟩ := format_text v .unset l ((escaped l ++ '}' :: t).length + 1) ('}' :: t) (by simp)
  rw [formatMsg, q2]
  obtain ⟨m, rfl⟩ : ∃ k, m = k + 1 := ⟨m - 1, by omega⟩
  cases t with
  | nil => simp [formatF, Except.map]
  | cons d t =>
    have hd : d ≠ '}' := by simpa using ht
    simp [formatF, Except.map, hd]

section Timing

variable {K : Type} [Field K] {E : Type} (fixed : K → Nat → List Char) (t0 t1 scale : K) (unit : List Char)

/-- C172.  If the code ends normally, there is one display with the title, the message, and in it the scaled difference
of the two times with the unit; nothing is raised. -/
theorem C172_displays (title : Option (List Char)) (l r : List Char) (n : Nat) :
    timeThis (E := E) fixed t0 t1 title (escaped l ++ '{' :: '}' :: escaped r) unit scale n (.ok ()) =
      ([title.getD [] ++ (l ++ (fixed ((t1 - t0) * scale) n ++ ' ' :: unit) ++ r)], none) := by
  unfold timeThis
  have : ¬ ((n : Int) < 0) := by omega
  simp only [this, if_false, Int.toNat_natCast, C172_message]
  cases title <;> rfl

/-- C172.  If the code raises, its exception is passed on and nothing is displayed, whatever the options. -/
theorem C172_raises (title : Option (List Char)) (msg : List Char) (n : Int) (e : E) :
    timeThis fixed t0 t1 title msg unit scale n (.error e) = ([], some (.body e)) := rfl

/-- C172.  Code that ended normally can still end with an exception of the message: a second field, or a negative
number of decimal places; then nothing is displayed. -/
theorem C172_late (title : Option (List Char)) :
    (∀ (l mid t : List Char) (n : Nat), timeThis (E := E) fixed t0 t1 title
      (escaped l ++ '{' :: '}' :: (escaped mid ++ '{' :: '}' :: t)) unit scale n (.ok ()) =
        ([], some (.format .indexError))) ∧
    ∀ (msg : List Char) (n : Int), n < 0 → timeThis (E := E) fixed t0 t1 title msg unit scale n (.ok ()) =
        ([], some (.format .valueError)) := by
  constructor
  · intro l mid t n
    unfold timeThis
    have : ¬ ((n : Int) < 0) := by omega
    simp only [this, if_false, C172_two]
  · intro msg n hn
    unfold timeThis
    simp only [hn, if_true]

/-- C172.  Only the difference of the times matters, not when the code was run. -/
theorem C172_shift (s : K) (title : Option (List Char)) (msg : List Char) (n : Int) (body : Except E Unit) :
    timeThis fixed (t0 + s) (t1 + s) title msg unit scale n body = timeThis fixed t0 t1 title msg unit scale n body := by
  unfold timeThis
  rw [add_sub_add_right_eq_sub]

end Timing

end Verif.Timer
