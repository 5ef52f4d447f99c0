import Verif.Out.HtmlModel
import Mathlib.Data.List.Basic
import Mathlib.Data.List.TakeWhile
import Mathlib.Tactic.Linarith

/-!
# C104: the parameters of a model as HTML
-/

set_option autoImplicit false
set_option linter.unusedSectionVars false
set_option linter.unusedSimpArgs false

namespace Verif.Html

/-! ## Specification: reading the page -/

/-- A parameter as the reader sees it: depth, whether it can be unfolded, its text. -/
structure Entry where
  depth : Nat
  isModel : Bool
  text : List Txt
  deriving DecidableEq

/-- What has been opened last. -/
inductive Cur where
  | idle
  | opened (isModel : Bool) (text : List Txt)
  | afterButton
  deriving DecidableEq

/-- State of a reader. -/
structure St where
  depth : Nat
  cur : Cur
  out : List Entry
  deriving DecidableEq

/-- Read a line; `none` if it closes what is not open, or stands where it must not. -/
def read (s : St) : Tok → Option St
  | .button => if s.cur = .idle then some { s with cur := .opened true [] } else none
  | .plain => if s.cur = .idle then some { s with cur := .opened false [] } else none
  | .text t =>
    match s.cur with
    | .opened m ts => some { s with cur := .opened m (ts ++ [t]) }
    | .idle => if t = [] then some s else none
    | .afterButton => none
  | .endButton =>
    match s.cur with
    | .opened true ts => some ⟨s.depth, .afterButton, s.out ++ [⟨s.depth, true, ts⟩]⟩
    | _ => none
  | .content => if s.cur = .afterButton then some ⟨s.depth + 1, .idle, s.out⟩ else none
  | .endDiv =>
    match s.cur with
    | .opened false ts => some ⟨s.depth, .idle, s.out ++ [⟨s.depth, false, ts⟩]⟩
    | .idle => if s.depth = 0 then none else some ⟨s.depth - 1, .idle, s.out⟩
    | _ => none

/-- The lines a browser takes for opening and closing a button, a plain parameter and a block of parameters. -/
def written : Tok → Txt
  | .button => "<button type=\"button\" class=\"collapsible\">".toList
  | .endButton => "</button>".toList
  | .plain => "<div class=\"noncollapsible\">".toList
  | .content => "<div class=\"content\">".toList
  | .endDiv => "</div>".toList
  | .text s => s

/-- Read all the lines. -/
def readAll (s : St) : List Tok → Option St
  | [] => some s
  | t :: ts => (read s t).bind fun s' => readAll s' ts

mutual
/-- The parameter of a model, and those of its value. -/
def valOutline (depth : Nat) (docs : List Txt) (k : Txt) : Val → List Entry
  | .leaf => [⟨depth, false, label docs k⟩]
  | .model doc ps => ⟨depth, true, label docs k⟩ :: paramOutline (depth + 1) (parseDocs doc) ps
/-- The parameters of a model in order, each followed by those of its value. -/
def paramOutline (depth : Nat) (docs : List Txt) : Params → List Entry
  | .nil => []
  | .cons k v rest =>
    if hasDunder k then paramOutline depth docs rest
    else valOutline depth docs k v ++ paramOutline depth docs rest
end

/-! ## Reading -/

theorem readAll_append (s : St) (a b : List Tok) :
    readAll s (a ++ b) = (readAll s a).bind fun s' => readAll s' b := by
  induction a generalizing s with
  | nil => rfl
  | cons t ts ih =>
    simp only [List.cons_append, readAll]
    cases read s t with
    | none => rfl
    | some s' => simp only [Option.bind_some]; exact ih s'

theorem read_texts (d : Nat) (m : Bool) (out : List Entry) (l ts : List Txt) :
    readAll ⟨d, .opened m ts, out⟩ (l.map .text) = some ⟨d, .opened m (ts ++ l), out⟩ := by
  induction l generalizing ts with
  | nil => simp [readAll]
  | cons t l ih =>
    simp only [List.map_cons, readAll, read, Option.bind_some]
    rw [ih]
    simp

theorem read_nonempty (s s' : St) (l : List Tok) (hc : s.cur = .idle) (h : readAll s l = some s') :
    readAll s (nonempty l) = some s' := by
  unfold nonempty
  split
  · rename_i hl
    subst hl
    simp only [readAll, read, hc] at h ⊢
    simpa using h
  · exact h

mutual
theorem read_val (d : Nat) (docs : List Txt) (k : Txt) (out : List Entry) : ∀ v : Val,
    readAll ⟨d, .idle, out⟩ (valToks docs k v) = some ⟨d, .idle, out ++ valOutline d docs k v⟩
  | .leaf => by
    simp only [valToks, valOutline, List.cons_append, readAll, read, if_true, Option.bind_some]
    rw [readAll_append, read_texts]
    simp [readAll, read]
  | .model doc ps => by
    have h := read_params (d + 1) (parseDocs doc) (out ++ [⟨d, true, label docs k⟩]) ps
    simp only [valToks, valOutline, List.cons_append, readAll, read, if_true, Option.bind_some]
    rw [List.append_assoc, List.append_assoc, readAll_append, read_texts]
    simp only [Option.bind_some, List.nil_append, List.cons_append, readAll, read, if_true]
    rw [readAll_append, read_nonempty _ _ _ rfl h]
    simp [readAll, read]
theorem read_params (d : Nat) (docs : List Txt) (out : List Entry) : ∀ ps : Params,
    readAll ⟨d, .idle, out⟩ (paramToks docs ps) = some ⟨d, .idle, out ++ paramOutline d docs ps⟩
  | .nil => by simp [paramToks, paramOutline, readAll]
  | .cons k v rest => by
    unfold paramToks paramOutline
    split
    · exact read_params d docs out rest
    · rw [readAll_append, read_val d docs k out v, Option.bind_some, read_params d docs _ rest]
      simp
end

theorem written_str (t : Tok) : written t = t.str := by
  cases t <;> rfl

theorem joinWith_eq (sep : Txt) (l : List Txt) : joinWith sep l = sep.intercalate l := by
  induction l with
  | nil => rfl
  | cons a l ih =>
    cases l with
    | nil => simp [joinWith, List.intercalate]
    | cons b l =>
      rw [joinWith, ih]
      · simp [List.intercalate]
      · simp

theorem body_written (name : Txt) (doc : Option Txt) (ps : Params) :
    body name doc ps = ['\n'].intercalate ((paramToks [] (.cons name (.model doc ps) .nil)).map written) := by
  rw [body, joinWith_eq]
  congr 1
  apply List.map_congr_left
  intro t _
  exact (written_str t).symm

/-- **C104.** The page of every model, however deep, is well formed, and a reader finds on it, at the depth they
have, the parameters of the model, in order, each followed by those of its value; those that are models can
be unfolded. -/
theorem C104_page (name : Txt) (hname : hasDunder name = false) (doc : Option Txt) (ps : Params) :
    ∃ toks, body name doc ps = ['\n'].intercalate (toks.map written) ∧
      readAll ⟨0, .idle, []⟩ toks = some ⟨0, .idle, ⟨0, true, [name]⟩ :: paramOutline 1 (parseDocs doc) ps⟩ := by
  refine ⟨_, body_written name doc ps, ?_⟩
  rw [read_params]
  simp [paramOutline, valOutline, hname, label]

/-! ## Which text belongs to which parameter -/

/-- **C104.** Parameters with `__` in their names (those of the values) are left out. -/
theorem C104_dunder (k : Txt) : hasDunder k = true ↔ ∃ a b, k = a ++ '_' :: '_' :: b := by
  induction k with
  | nil => simp [hasDunder]
  | cons c s ih =>
    constructor
    · intro h
      unfold hasDunder at h
      split at h
      · rename_i t heq
        exact ⟨[], t, heq⟩
      · rename_i c' s' hn heq
        simp only [List.cons.injEq] at heq
        obtain ⟨rfl, rfl⟩ := heq
        obtain ⟨a, b, hab⟩ := ih.1 h
        exact ⟨c :: a, b, by rw [hab]; rfl⟩
      · simp at h
    · rintro ⟨a, b, h⟩
      cases a with
      | nil =>
        rw [List.nil_append] at h
        rw [h]; rfl
      | cons x a =>
        simp only [List.cons_append, List.cons.injEq] at h
        obtain ⟨rfl, hs⟩ := h
        have := ih.2 ⟨a, b, hs⟩
        unfold hasDunder
        split <;> simp_all

theorem takeWhile_word (k r : Txt) (hk : ∀ c ∈ k, isWord c = true) :
    (k ++ r).takeWhile isWord = k ++ r.takeWhile isWord := by
  induction k with
  | nil => rfl
  | cons c k ih =>
    have hc := hk c (by simp)
    simp only [List.cons_append, List.takeWhile_cons, hc, if_true]
    rw [ih fun c h => hk c (by simp [h])]

/-- **C104.** A description is shown for the parameter whose name is the first word of it (and nothing else
than the name for a parameter without a description). -/
theorem C104_described (docs : List Txt) (k : Txt) (hk : ∀ c ∈ k, isWord c = true) :
    ((∀ d ∈ docs, ¬(d.takeWhile isWord = k ∧ d ≠ k)) → label docs k = [k]) ∧
    ((∃ d ∈ docs, d.takeWhile isWord = k ∧ d ≠ k) →
      label docs k = docs.filter fun d => d.takeWhile isWord = k ∧ d ≠ k) := by
  have key : ∀ d : Txt, describes k d = true ↔ (d.takeWhile isWord = k ∧ d ≠ k) := by
    intro d
    unfold describes
    constructor
    · intro h
      simp only [Bool.and_eq_true, List.isPrefixOf_iff_prefix] at h
      obtain ⟨⟨r, rfl⟩, h2⟩ := h
      simp only [List.drop_left] at h2
      cases r with
      | nil => simp at h2
      | cons c r =>
        simp only [Bool.not_eq_true'] at h2
        rw [takeWhile_word k _ hk]
        simp [h2]
    · rintro ⟨h1, h2⟩
      obtain ⟨r, hr⟩ : ∃ r, d = k ++ r := ⟨d.dropWhile isWord, by rw [← h1, List.takeWhile_append_dropWhile]⟩
      subst hr
      rw [takeWhile_word k _ hk] at h1
      simp only [Bool.and_eq_true, List.isPrefixOf_iff_prefix, List.prefix_append, true_and, List.drop_left]
      cases r with
      | nil => simp at h2
      | cons c r =>
        simp only [List.takeWhile_cons] at h1
        by_cases hc : isWord c = true
        · rw [if_pos hc] at h1
          simp at h1
        · simpa using hc
  have hf : docs.filter (describes k) = docs.filter fun d => d.takeWhile isWord = k ∧ d ≠ k := by
    congr 1
    funext d
    rw [Bool.eq_iff_iff, key d]; simp
  constructor
  · intro h
    unfold label
    rw [if_pos]
    rw [List.filter_eq_nil_iff]
    intro d hd hc
    exact h d hd ((key d).1 hc)
  · rintro ⟨d, hd, h⟩
    unfold label
    rw [if_neg, hf]
    intro hn
    rw [List.filter_eq_nil_iff] at hn
    exact hn d hd ((key d).2 h)

/-! ## Descriptions -/

theorem groups_flatten (ind : Option Nat) (s : List Txt) (l : List Txt) :
    (groups ind s l).flatten = s ++ l := by
  induction l generalizing ind s with
  | nil => simp [groups]
  | cons d ds ih =>
    unfold groups
    split
    · split
      · rename_i h
        subst h
        rw [ih]; simp
      · rw [List.flatten_cons, ih]; simp
    · rw [ih]; simp

/-- **C104.** No line of the description is lost, repeated or moved. -/
theorem C104_lines (doc s : Txt) (h : afterArgs (unwrap doc) = some s) :
    ∃ g : List (List Txt), g.flatten = (splitLines s).filter (· ≠ []) ∧
      parseDocs (some doc) = g.map fun b => joinWith [' '] (b.map strip) := by
  refine ⟨groups none [] ((splitLines s).filter (· ≠ [])), by rw [groups_flatten]; rfl, ?_⟩
  simp only [parseDocs, h]

theorem groups_block (p : Nat) (s conts rest : List Txt) (hs : s ≠ [])
    (hc : ∀ l ∈ conts, p < indentOf l) :
    groups (some p) s (conts ++ rest) = groups (some p) (s ++ conts) rest := by
  induction conts generalizing s with
  | nil => simp
  | cons c conts ih =>
    have h := hc c (by simp)
    rw [List.cons_append, groups, if_neg (by simp [leIndent]; exact h),
      ih _ (by simp) fun l hl => hc l (by simp [hl])]
    simp

/-- Descriptions of arguments: a line with the usual indentation, then lines indented more. -/
theorem groups_blocks (p : Nat) (blocks : List (Txt × List Txt)) (s : List Txt) (hs : s ≠ [])
    (hh : ∀ b ∈ blocks, indentOf b.1 = p) (hc : ∀ b ∈ blocks, ∀ l ∈ b.2, p < indentOf l) :
    groups (some p) s (blocks.flatMap fun b => b.1 :: b.2) = s :: blocks.map fun b => b.1 :: b.2 := by
  induction blocks generalizing s with
  | nil => simp [groups]
  | cons b blocks ih =>
    rw [List.flatMap_cons, List.cons_append, groups, if_pos (by simp [leIndent, hh b (by simp)]), if_neg hs,
      hh b (by simp), groups_block p [b.1] b.2 _ (by simp) (hc b (by simp)), List.singleton_append,
      ih _ (by simp) (fun b' h => hh b' (by simp [h])) (fun b' h => hc b' (by simp [h]))]
    simp

theorem splitLines_ne (s : Txt) : splitLines s ≠ [] := by
  cases s with
  | nil => simp [splitLines]
  | cons c s =>
    unfold splitLines
    split
    · simp
    · split <;> simp

theorem splitLines_line (l : Txt) (hl : '\n' ∉ l) : splitLines l = [l] := by
  induction l with
  | nil => rfl
  | cons c l ih =>
    simp only [List.mem_cons, not_or] at hl
    unfold splitLines
    rw [if_neg (Ne.symm hl.1), ih hl.2]

theorem splitLines_cons (l r : Txt) (hl : '\n' ∉ l) : splitLines (l ++ '\n' :: r) = l :: splitLines r := by
  induction l with
  | nil => simp [splitLines]
  | cons c l ih =>
    simp only [List.mem_cons, not_or] at hl
    rw [List.cons_append, splitLines, if_neg (Ne.symm hl.1), ih hl.2]

theorem splitLines_join (ls : List Txt) (h : ∀ l ∈ ls, '\n' ∉ l) (hne : ls ≠ []) :
    splitLines (joinWith ['\n'] ls) = ls := by
  induction ls with
  | nil => exact absurd rfl hne
  | cons l ls ih =>
    cases ls with
    | nil => exact splitLines_line l (h l (by simp))
    | cons m ls =>
      unfold joinWith
      rw [List.append_assoc, List.singleton_append, splitLines_cons _ _ (h l (by simp)),
        ih (fun l hl => h l (by simp [hl])) (by simp)]

theorem afterArgs_first (pre r : Txt)
    (hp : ∀ a b, pre ++ ['A', 'r', 'g', 's'] ≠ a ++ ['A', 'r', 'g', 's', ':'] ++ b) :
    afterArgs (pre ++ ['A', 'r', 'g', 's', ':'] ++ r) = some r := by
  induction pre with
  | nil => rfl
  | cons c pre ih =>
    rw [List.cons_append, List.cons_append]
    unfold afterArgs
    rw [if_neg, ih]
    · intro a b h
      exact hp (c :: a) b (by simp only [List.cons_append, h])
    · intro hc
      rw [List.isPrefixOf_iff_prefix] at hc
      obtain ⟨t, ht⟩ := hc
      refine hp [] ((c :: pre ++ ['A', 'r', 'g', 's']).drop 5) ?_
      have hlen : 5 ≤ (c :: pre ++ ['A', 'r', 'g', 's']).length := by simp
      have hpre : ['A', 'r', 'g', 's', ':'] <+: c :: pre ++ ['A', 'r', 'g', 's'] := by
        refine List.prefix_of_prefix_length_le (l₃ := c :: (pre ++ ['A', 'r', 'g', 's', ':'] ++ r)) ⟨t, ht⟩
          ⟨':' :: r, by simp⟩ hlen
      obtain ⟨u, hu⟩ := hpre
      rw [← hu]
      simp

/-- **C104.** The documentation of a class with a section `Args:`, in which each argument is a line with one
indentation followed by lines that are indented more, gives one description for each argument, in order: its
lines without the blanks around them, with a blank between. -/
theorem C104_docs (doc pre : Txt) (p : Nat) (blocks : List (Txt × List Txt)) (hne : blocks ≠ [])
    (hdoc : unwrap doc = pre ++ ['A', 'r', 'g', 's', ':'] ++
      '\n' :: joinWith ['\n'] (blocks.flatMap fun b => b.1 :: b.2))
    (hpre : ∀ a b, pre ++ ['A', 'r', 'g', 's'] ≠ a ++ ['A', 'r', 'g', 's', ':'] ++ b)
    (hlines : ∀ b ∈ blocks, ∀ l ∈ b.1 :: b.2, l ≠ [] ∧ '\n' ∉ l)
    (hh : ∀ b ∈ blocks, indentOf b.1 = p) (hc : ∀ b ∈ blocks, ∀ l ∈ b.2, p < indentOf l) :
    parseDocs (some doc) = blocks.map fun b => joinWith [' '] ((b.1 :: b.2).map strip) := by
  have hl : ∀ l ∈ blocks.flatMap (fun b => b.1 :: b.2), l ≠ [] ∧ '\n' ∉ l := by
    intro l hl
    obtain ⟨b, hb, hl⟩ := List.mem_flatMap.1 hl
    exact hlines b hb l hl
  have hsplit : splitLines ('\n' :: joinWith ['\n'] (blocks.flatMap fun b => b.1 :: b.2)) =
      [] :: blocks.flatMap fun b => b.1 :: b.2 := by
    rw [splitLines, if_pos rfl, splitLines_join _ fun l h => (hl l h).2]
    cases blocks with
    | nil => exact absurd rfl hne
    | cons b bs => simp
  have hfilter : ((splitLines ('\n' :: joinWith ['\n'] (blocks.flatMap fun b => b.1 :: b.2))).filter (· ≠ [])) =
      blocks.flatMap fun b => b.1 :: b.2 := by
    rw [hsplit, List.filter_cons, if_neg (by simp)]
    rw [List.filter_eq_self]
    intro l h
    simpa using (hl l h).1
  unfold parseDocs
  simp only [hdoc]
  rw [afterArgs_first _ _ hpre]
  simp only
  rw [hfilter]
  cases blocks with
  | nil => exact absurd rfl hne
  | cons b bs =>
    rw [List.flatMap_cons, List.cons_append, groups, if_pos rfl, hh b (by simp)]
    rw [groups_block p [b.1] b.2 _ (by simp) (hc b (by simp)), List.singleton_append,
      groups_blocks p bs _ (by simp) (fun b' h => hh b' (by simp [h])) (fun b' h => hc b' (by simp [h]))]
    simp [leIndent]

/-! ## Sphinx roles -/

theorem afterLast_none (r : Txt) (h : '`' ∉ r.tail.takeWhile (· ≠ '\n')) : afterLast r = none := by
  induction r with
  | nil => rfl
  | cons c r ih =>
    cases r with
    | nil => rfl
    | cons d r =>
      unfold afterLast
      split
      · rfl
      · have hd : d ≠ '`' := by
          rintro rfl
          simp at h
        have : afterLast (d :: r) = none := by
          by_cases hn : d = '\n'
          · subst hn
            cases r with
            | nil => rfl
            | cons e r => simp [afterLast]
          · apply ih
            intro h'
            apply h
            simp only [List.tail_cons, List.takeWhile_cons] at h' ⊢
            rw [if_pos (by simpa using hn)]
            exact List.mem_cons_of_mem _ h'
        rw [this]
        simp [hd]

theorem afterLast_role (c b : Txt) (hc : c ≠ []) (hn : '\n' ∉ c) (hb : '`' ∉ b.takeWhile (· ≠ '\n')) :
    afterLast (c ++ '`' :: b) = some b := by
  induction c with
  | nil => exact absurd rfl hc
  | cons x c ih =>
    simp only [List.mem_cons, not_or] at hn
    cases c with
    | nil =>
      simp only [List.cons_append, List.nil_append]
      unfold afterLast
      rw [if_neg (Ne.symm hn.1), afterLast_none _ (by simpa using hb)]
      simp
    | cons y c =>
      have := ih (by simp) hn.2
      simp only [List.cons_append] at this ⊢
      unfold afterLast
      rw [if_neg (Ne.symm hn.1), this]

theorem afterLast_length (r t : Txt) (h : afterLast r = some t) : t.length < r.length := by
  induction r with
  | nil => simp [afterLast] at h
  | cons c r ih =>
    cases r with
    | nil => simp [afterLast] at h
    | cons d r =>
      unfold afterLast at h
      split at h
      · simp at h
      · cases he : afterLast (d :: r) with
        | some u =>
          rw [he] at h
          simp only [Option.some.injEq] at h
          subst h
          have := ih he
          simp only [List.length_cons] at this ⊢
          omega
        | none =>
          rw [he] at h
          simp only at h
          split at h
          · simp only [Option.some.injEq] at h
            subst h
            simp only [List.length_cons]; omega
          · simp at h

theorem matchRole_length (s t rest : Txt) (h : matchRole s = some (t, rest)) : rest.length < s.length := by
  unfold matchRole at h
  split at h
  · rename_i s'
    split at h
    · simp at h
    · split at h
      · rename_i r heq
        cases ha : afterLast r with
        | none => rw [ha] at h; simp at h
        | some u =>
          rw [ha] at h
          simp only [Option.some.injEq, Prod.mk.injEq] at h
          obtain ⟨-, rfl⟩ := h
          have h1 := afterLast_length _ _ ha
          have h2 : (s'.dropWhile isWord).length ≤ s'.length := List.length_dropWhile_le _ _
          rw [heq] at h2
          simp only [List.length_cons] at h2 ⊢
          omega
      · simp at h
  · simp at h

theorem unwrapGo_fuel (n m : Nat) (s : Txt) (hn : s.length ≤ n) (hm : s.length ≤ m) :
    unwrapGo n s = unwrapGo m s := by
  induction n generalizing m s with
  | zero =>
    have : s = [] := List.length_eq_zero_iff.1 (by omega)
    subst this
    cases m <;> rfl
  | succ n ih =>
    cases s with
    | nil => cases m <;> rfl
    | cons c s =>
      simp only [List.length_cons] at hn hm
      obtain ⟨m, rfl⟩ : ∃ k, m = k + 1 := ⟨m - 1, by omega⟩
      unfold unwrapGo
      cases hr : matchRole (c :: s) with
      | none =>
        simp only
        rw [ih m s (by omega) (by omega)]
      | some tr =>
        obtain ⟨t, rest⟩ := tr
        have := matchRole_length _ _ _ hr
        simp only [List.length_cons] at this
        simp only
        rw [ih m rest (by omega) (by omega)]

theorem unwrap_cons (c : Char) (s : Txt) (h : matchRole (c :: s) = none) : unwrap (c :: s) = c :: unwrap s := by
  unfold unwrap
  rw [List.length_cons, unwrapGo, h]

theorem unwrap_match (s t rest : Txt) (h : matchRole s = some (t, rest)) : unwrap s = t ++ unwrap rest := by
  have hl := matchRole_length _ _ _ h
  cases s with
  | nil => simp at hl
  | cons c s =>
    unfold unwrap
    rw [List.length_cons, unwrapGo, h]
    simp only
    simp only [List.length_cons] at hl
    rw [unwrapGo_fuel s.length rest.length rest (by omega) (le_refl _)]

theorem matchRole_none (s : Txt) (h : '`' ∉ s) : matchRole s = none := by
  unfold matchRole
  split
  · rename_i s'
    split
    · rfl
    · split
      · rename_i r heq
        exfalso
        apply h
        have hm : '`' ∈ s'.dropWhile isWord := by rw [heq]; simp
        exact List.mem_cons_of_mem _ ((List.dropWhile_sublist _).subset hm)
      · rfl
  · rfl

theorem dropWhile_word (a r : Txt) (ha : ∀ c ∈ a, isWord c = true) :
    (a ++ ':' :: r).dropWhile isWord = ':' :: r := by
  have hcolon : isWord ':' = false := by decide
  induction a with
  | nil => simp [List.dropWhile_cons, hcolon]
  | cons c a ih =>
    rw [List.cons_append, List.dropWhile_cons, if_pos (ha c (by simp))]
    exact ih fun c h => ha c (by simp [h])

/-- No role starts before the first one that has a `` ` ``. -/
theorem matchRole_before (x : Char) (a w r : Txt) (ha : '`' ∉ x :: a) (hw : w ≠ [])
    (hww : ∀ c ∈ w, isWord c = true) : matchRole (x :: (a ++ ':' :: (w ++ r))) = none := by
  unfold matchRole
  split
  · rename_i s heq
    simp only [List.cons.injEq] at heq
    obtain ⟨rfl, rfl⟩ := heq
    split
    · rfl
    · split
      · rename_i r' heq
        exfalso
        have hcolon : isWord ':' = false := by decide
        have htick : isWord '`' = false := by decide
        by_cases hall : ∀ c ∈ a, isWord c = true
        · have : (a ++ ':' :: (w ++ r)).dropWhile isWord = ':' :: (w ++ r) := dropWhile_word a _ hall
          rw [this] at heq
          cases w with
          | nil => exact hw rfl
          | cons u w =>
            simp only [List.cons_append, List.cons.injEq, true_and] at heq
            have := hww u (by simp)
            rw [heq.1, htick] at this
            simp at this
        · obtain ⟨y, a', hy⟩ : ∃ y a', a.dropWhile isWord = y :: a' := by
            cases hd : a.dropWhile isWord with
            | nil =>
              exfalso
              apply hall
              exact List.dropWhile_eq_nil_iff.1 hd
            | cons y a' => exact ⟨y, a', rfl⟩
          have : (a ++ ':' :: (w ++ r)).dropWhile isWord = y :: a' ++ ':' :: (w ++ r) := by
            rw [← hy]
            rw [List.dropWhile_append, if_neg]
            rw [hy]; simp
          rw [this] at heq
          simp only [List.cons_append, List.cons.injEq] at heq
          obtain ⟨-, heq⟩ := heq
          cases a' with
          | nil =>
            simp only [List.nil_append, List.cons.injEq] at heq
            exact absurd heq.1 (by decide)
          | cons z a' =>
            simp only [List.cons_append, List.cons.injEq] at heq
            apply ha
            have hm : z ∈ a.dropWhile isWord := by rw [hy]; simp
            rw [heq.1] at hm
            exact List.mem_cons_of_mem _ ((List.dropWhile_sublist _).subset hm)
      · rfl
  · rfl

/-- **C104.** Text without `` ` `` stays as it is; a Sphinx role, if it is the last of its line, is replaced by
what it marks. -/
theorem C104_roles :
    (∀ s : Txt, '`' ∉ s → unwrap s = s) ∧
    ∀ a w c b : Txt, '`' ∉ a → w ≠ [] → (∀ x ∈ w, isWord x = true) → c ≠ [] → '`' ∉ c → '\n' ∉ c →
      '`' ∉ b.takeWhile (· ≠ '\n') →
      unwrap (a ++ ':' :: (w ++ ':' :: '`' :: (c ++ '`' :: b))) = a ++ c ++ unwrap b := by
  constructor
  · intro s hs
    induction s with
    | nil => rfl
    | cons x s ih =>
      rw [unwrap_cons _ _ (matchRole_none _ hs), ih fun h => hs (List.mem_cons_of_mem _ h)]
  · intro a w c b ha hw hww hc hct hcn hb
    induction a with
    | nil =>
      rw [List.nil_append, List.nil_append]
      apply unwrap_match
      have hcolon : isWord ':' = false := by decide
      have h1 : (w ++ ':' :: '`' :: (c ++ '`' :: b)).takeWhile isWord = w := by
        rw [takeWhile_word _ _ hww]; simp [List.takeWhile_cons, hcolon]
      have h2 : (w ++ ':' :: '`' :: (c ++ '`' :: b)).dropWhile isWord = ':' :: '`' :: (c ++ '`' :: b) :=
        dropWhile_word w _ hww
      have h3 : (c ++ '`' :: b).takeWhile (· ≠ '`') = c := by
        clear h1 h2 hc hcn
        induction c with
        | nil => simp [List.takeWhile_cons]
        | cons u c ih =>
          simp only [List.mem_cons, not_or] at hct
          rw [List.cons_append, List.takeWhile_cons, if_pos (by simpa using Ne.symm hct.1), ih hct.2]
      unfold matchRole
      simp only [h1, h2, hw, if_false]
      rw [afterLast_role c b hc hcn hb]
      simp only [h3]
    | cons x a ih =>
      simp only [List.cons_append]
      rw [unwrap_cons _ _ (matchRole_before x a w _ ha hw hww),
        ih fun h => ha (List.mem_cons_of_mem _ h)]

/-- Two roles on a line: the text from the end of the first one on is lost. -/
theorem two_roles : unwrap ":data:`a` or :data:`b`.".toList = "a.".toList := by decide +kernel

/-- A model with two parameters, one of them a model without parameters. -/
example : (paramToks [] (.cons ['M'] (.model (some "A model\n\nArgs:\n  a (float): A value\n    of the model\n  b: Part".toList)
      (.cons ['a'] .leaf (.cons ['b'] (.model none .nil) (.cons ['b', '_', '_', 'c'] .leaf .nil)))) .nil)) =
    [.button, .text ['M'], .endButton, .content,
      .plain, .text "a (float): A value of the model".toList, .endDiv,
      .button, .text "b: Part".toList, .endButton, .content, .text [], .endDiv, .endDiv] := by
  decide +kernel

/-- The hypotheses of `C104_docs` hold for this documentation. -/
example : unwrap "A model\n\nArgs:\n  a (float): A :data:`value`\n    of the model\n  b: Part".toList =
      "A model\n\n".toList ++ ['A', 'r', 'g', 's', ':'] ++ '\n' :: joinWith ['\n']
        ([("  a (float): A value".toList, ["    of the model".toList]), ("  b: Part".toList, [])].flatMap
          fun b => b.1 :: b.2) ∧
    parseDocs (some "A model\n\nArgs:\n  a (float): A :data:`value`\n    of the model\n  b: Part".toList) =
      ["a (float): A value of the model".toList, "b: Part".toList] := by
  decide +kernel

end Verif.Html
