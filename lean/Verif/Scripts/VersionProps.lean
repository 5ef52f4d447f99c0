import Verif.Scripts.VersionModel

/-!
# C62: versions and the changelog
-/

set_option autoImplicit false
set_option linter.unusedSectionVars false
set_option linter.unusedSimpArgs false

namespace Verif.Scripts

/-! ### Comparison -/

/-- The order that is meant: `u` is a proper prefix of `v`, or the first difference is a smaller
component of `u`. -/
def Before (u v : List Int) : Prop :=
  (∃ c w, v = u ++ c :: w) ∨ ∃ p i j u' v', u = p ++ i :: u' ∧ v = p ++ j :: v' ∧ i < j

theorem compare_cons (i j : Int) (u v : List Int) : versionCompare (i :: u) (j :: v) =
    if i = j then versionCompare u v else if i < j then -1 else 1 := rfl

theorem compare_nil : versionCompare [] [] = 0 := rfl

theorem compare_nil_cons (j : Int) (v : List Int) : versionCompare [] (j :: v) = -1 := rfl

theorem compare_cons_nil (i : Int) (u : List Int) : versionCompare (i :: u) [] = 1 := rfl

theorem before_cons (i j : Int) (u v : List Int) :
    Before (i :: u) (j :: v) ↔ i < j ∨ (i = j ∧ Before u v) := by
  constructor
  · rintro (⟨c, w, h⟩ | ⟨p, a, b, u', v', h1, h2, h3⟩)
    · simp only [List.cons_append, List.cons.injEq] at h
      exact Or.inr ⟨h.1.symm, Or.inl ⟨c, w, h.2⟩⟩
    · cases p with
      | nil =>
        simp only [List.nil_append, List.cons.injEq] at h1 h2
        exact Or.inl (h1.1 ▸ h2.1 ▸ h3)
      | cons q p =>
        simp only [List.cons_append, List.cons.injEq] at h1 h2
        exact Or.inr ⟨h1.1.trans h2.1.symm, Or.inr ⟨p, a, b, u', v', h1.2, h2.2, h3⟩⟩
  · rintro (h | ⟨rfl, ⟨c, w, h⟩ | ⟨p, a, b, u', v', h1, h2, h3⟩⟩)
    · exact Or.inr ⟨[], i, j, u, v, rfl, rfl, h⟩
    · exact Or.inl ⟨c, w, by simp [h]⟩
    · exact Or.inr ⟨i :: p, a, b, u', v', by simp [h1], by simp [h2], h3⟩

/-- **C62** (meaning): the comparison is −1 exactly if the first version is before the second, 1 exactly if
the second one is before the first, and 0 exactly if they are equal. -/
theorem C62_meaning : ∀ u v : List Int, (versionCompare u v = -1 ↔ Before u v) ∧
    (versionCompare u v = 1 ↔ Before v u) ∧ (versionCompare u v = 0 ↔ u = v)
  | [], [] => by
    simp [compare_nil, Before]
  | [], j :: v => by
    simp [compare_nil_cons, Before]
  | i :: u, [] => by
    simp [compare_cons_nil, Before]
  | i :: u, j :: v => by
    obtain ⟨h1, h2, h3⟩ := C62_meaning u v
    rw [compare_cons, before_cons, before_cons]
    by_cases hij : i = j
    · subst hij
      simp [h1, h2, h3]
    · by_cases hlt : i < j
      · simp [hij, hlt, not_lt.2 hlt.le, Ne.symm hij]
      · have : j < i := lt_of_le_of_ne (not_lt.1 hlt) (Ne.symm hij)
        simp [hij, hlt, this, Ne.symm hij]

example : versionCompare [1, 9] [1, 10] = -1 ∧ versionCompare [2] [1, 10, 3] = 1 ∧
    versionCompare [1, 2] [1, 2, 0] = -1 := by decide +kernel

/-- **C62** (total order): the sign is reversed when the arguments are exchanged; it is zero only for equal
versions; "not after" is transitive; two versions are always comparable. -/
theorem C62_order (u v w : List Int) :
    versionCompare v u = -versionCompare u v ∧ (versionCompare u v = 0 ↔ u = v) ∧
    (versionCompare u v ≤ 0 → versionCompare v w ≤ 0 → versionCompare u w ≤ 0) ∧
    (versionCompare u v < 0 → versionCompare v w < 0 → versionCompare u w < 0) ∧
    (versionCompare u v = -1 ∨ versionCompare u v = 0 ∨ versionCompare u v = 1) := by
  have sign : ∀ u v, versionCompare u v = -1 ∨ versionCompare u v = 0 ∨ versionCompare u v = 1 := by
    intro u
    induction u with
    | nil => intro v; cases v <;> simp [compare_nil, compare_nil_cons]
    | cons i u ih =>
      intro v
      cases v with
      | nil => simp [compare_cons_nil]
      | cons j v =>
        rw [compare_cons]
        split
        · exact ih v
        · split <;> simp
  have anti : ∀ u v, versionCompare v u = -versionCompare u v := by
    intro u
    induction u with
    | nil => intro v; cases v <;> simp [compare_nil, compare_nil_cons, compare_cons_nil]
    | cons i u ih =>
      intro v
      cases v with
      | nil => simp [compare_cons_nil, compare_nil_cons]
      | cons j v =>
        rw [compare_cons, compare_cons, ih v]
        by_cases hij : i = j
        · simp [hij]
        · by_cases hlt : i < j
          · simp [hij, hlt, not_lt.2 hlt.le, Ne.symm hij]
          · have : j < i := lt_of_le_of_ne (not_lt.1 hlt) (Ne.symm hij)
            simp [hij, hlt, this, Ne.symm hij]
  have trans : ∀ u v w, versionCompare u v ≤ 0 → versionCompare v w ≤ 0 →
      versionCompare u w ≤ 0 ∧ (versionCompare u w = 0 → versionCompare u v = 0) := by
    intro u
    induction u with
    | nil =>
      intro v w h1 h2
      cases v with
      | nil => cases w <;> simp [compare_nil, compare_nil_cons]
      | cons j v =>
        cases w with
        | nil => simp [compare_cons_nil] at h2
        | cons k w => simp [compare_nil_cons]
    | cons i u ih =>
      intro v w h1 h2
      cases v with
      | nil => simp [compare_cons_nil] at h1
      | cons j v =>
        cases w with
        | nil => simp [compare_cons_nil] at h2
        | cons k w =>
          rw [compare_cons] at h1 h2 ⊢
          by_cases hij : i = j
          · subst hij
            rw [if_pos rfl] at h1
            by_cases hik : i = k
            · subst hik
              rw [if_pos rfl] at h2 ⊢
              rw [compare_cons, if_pos rfl]
              exact ih v w h1 h2
            · rw [if_neg hik] at h2 ⊢
              split at h2
              · rename_i hlt; simp [hlt]
              · omega
          · rw [if_neg hij] at h1
            split at h1
            · rename_i hlt
              by_cases hjk : j = k
              · subst hjk
                simp [hij, hlt]
              · rw [if_neg hjk] at h2
                split at h2
                · rename_i hlt2
                  simp [show i ≠ k by omega, show i < k by omega]
                · omega
            · omega
  refine ⟨anti u v, (C62_meaning u v).2.2, fun h1 h2 => (trans u v w h1 h2).1, fun h1 h2 => ?_, sign u v⟩
  obtain ⟨h3, h4⟩ := trans u v w h1.le h2.le
  rcases lt_or_eq_of_le h3 with h | h
  · exact h
  · exact absurd (h4 h) (ne_of_lt h1)

/-! ### The changelog -/

theorem versions_mem (join : List Char → List Char) (version : List Char → Option (List Int)) :
    ∀ (fs : List (List Char)) (p : List Char) (v : List Int),
    (p, v) ∈ versions join version fs ↔ ∃ f ∈ fs, join f = p ∧ version f = some v
  | [], p, v => by simp [versions]
  | f :: fs, p, v => by
    have ih := versions_mem join version fs p v
    simp only [versions]
    cases hv : version f with
    | none => simp [ih, hv]
    | some w =>
      simp only [List.mem_cons, ih, Prod.mk.injEq, exists_eq_or_imp, hv, Option.some.injEq]
      constructor
      · rintro (⟨rfl, rfl⟩ | h)
        · exact Or.inl ⟨rfl, rfl⟩
        · exact Or.inr h
      · rintro (⟨rfl, rfl⟩ | h)
        · exact Or.inl ⟨rfl, rfl⟩
        · exact Or.inr h

/-- **C62** (changelog): for every directory of distinct files, the sorted list contains exactly the files
with a version, each one once; versions descend (newest first). -/
theorem C62_changelog (join : List Char → List Char) (hj : Function.Injective join)
    (version : List Char → Option (List Int)) (fs : List (List Char)) (hfs : fs.Nodup) :
    (∀ p v, (p, v) ∈ sortVersions (versions join version fs) ↔
      ∃ f ∈ fs, join f = p ∧ version f = some v) ∧
    ((sortVersions (versions join version fs)).map Prod.fst).Nodup ∧
    (sortVersions (versions join version fs)).Pairwise fun a b => a.2 = b.2 ∨ Before b.2 a.2 := by
  have hperm := List.perm_insertionSort (fun (a b : List Char × List Int) => versionCompare b.2 a.2 ≤ 0)
    (versions join version fs)
  refine ⟨fun p v => by rw [sortVersions, hperm.mem_iff, versions_mem], ?_, ?_⟩
  · rw [sortVersions, (hperm.map Prod.fst).nodup_iff]
    clear hperm
    induction fs with
    | nil => simp [versions]
    | cons f fs ih =>
      simp only [List.nodup_cons] at hfs
      simp only [versions]
      cases hv : version f with
      | none => exact ih hfs.2
      | some v =>
        simp only [List.map_cons, List.nodup_cons]
        refine ⟨fun hm => ?_, ih hfs.2⟩
        obtain ⟨⟨p, w⟩, h1, h2⟩ := List.mem_map.1 hm
        obtain ⟨g, hg, h3, -⟩ := (versions_mem join version fs p w).1 h1
        simp only at h2
        exact hfs.1 (hj (h3.trans h2) ▸ hg)
  · have : Std.Total fun (a b : List Char × List Int) => versionCompare b.2 a.2 ≤ 0 := ⟨fun a b => by
      have := (C62_order a.2 b.2 []).1
      omega⟩
    have : IsTrans (List Char × List Int) fun a b => versionCompare b.2 a.2 ≤ 0 :=
      ⟨fun a b c h1 h2 => (C62_order c.2 b.2 a.2).2.2.1 h2 h1⟩
    refine (List.pairwise_insertionSort (fun (a b : List Char × List Int) => versionCompare b.2 a.2 ≤ 0)
      (versions join version fs)).imp fun {a b} h => ?_
    obtain ⟨h1, h2, h3⟩ := C62_meaning b.2 a.2
    rcases (C62_order b.2 a.2 []).2.2.2.2 with h' | h' | h'
    · exact Or.inr (h1.1 h')
    · exact Or.inl (h3.1 h').symm
    · omega

/-- **C62** (stability): files with the same version stay in the order of the directory listing. -/
theorem C62_stable (d : List (List Char × List Int)) (v : List Int) :
    (sortVersions d).filter (fun e => decide (e.2 = v)) = d.filter fun e => decide (e.2 = v) := by
  have ins : ∀ (a : List Char × List Int) (l : List (List Char × List Int)),
      (l.orderedInsert (fun a b => versionCompare b.2 a.2 ≤ 0) a).filter (fun e => decide (e.2 = v)) =
        (a :: l).filter fun e => decide (e.2 = v) := by
    intro a l
    induction l with
    | nil => rfl
    | cons b l ih =>
      rw [List.orderedInsert]
      split
      · rfl
      · rename_i h
        have hab : a.2 ≠ b.2 := fun e => h (by rw [e, ((C62_order b.2 b.2 []).2.1).2 rfl])
        rw [List.filter_cons, ih]
        by_cases ha : a.2 = v
        · have hb : ¬b.2 = v := fun hb => hab (ha.trans hb.symm)
          simp [List.filter_cons, ha, hb]
        · simp [List.filter_cons, ha]
  unfold sortVersions
  induction d with
  | nil => rfl
  | cons a d ih =>
    rw [List.insertionSort_cons, ins, List.filter_cons, List.filter_cons, ih]

/-- Number of a string of decimal digits, for the examples; other strings are refused. -/
def demoInt (s : List Char) : Option Int :=
  if s.isEmpty || !(s.all Char.isDigit) then none
  else some ((s.foldl (fun n c => n * 10 + (c.toNat - 48)) 0 : Nat) : Int)

example : (sortVersions (versions id (versionOf (List.takeWhile (· ≠ '.')) Char.isAlpha demoInt '_')
      ["v1_9.md".toList, "README.md".toList, "v1_10.md".toList, "v1.md".toList])).map Prod.fst =
    ["v1_10.md".toList, "v1_9.md".toList, "v1.md".toList] := by decide +kernel

/-- **C62** (output): the text is the title, one line `.. mdinclude::` for each file with a version and none
for the others, newest version first, equal versions in the order of the directory, and an empty line. -/
theorem C62_lines (join : List Char → List Char)
    (version : List Char → Option (List Int)) (fs : List (List Char)) (hfs : fs.Nodup) :
    ∃ es : List (List Char × List Int),
      changelogLines (versions join version fs) = "Changelog\n=========\n".toList ::
        es.map (fun e => ".. mdinclude:: ".toList ++ join e.1) ++ [[]] ∧
      (∀ f v, (f, v) ∈ es ↔ f ∈ fs ∧ version f = some v) ∧ (es.map Prod.fst).Nodup ∧
      (es.Pairwise fun a b => a.2 = b.2 ∨ Before b.2 a.2) ∧
      ∀ v, (es.filter fun e => decide (e.2 = v)).map Prod.fst =
        fs.filter fun f => decide (version f = some v) := by
  have hid : Function.Injective (id : List Char → List Char) := fun _ _ h => h
  have hver : ∀ gs : List (List Char),
      versions join version gs = (versions id version gs).map fun e => (join e.1, e.2) := by
    intro gs
    induction gs with
    | nil => rfl
    | cons f gs ih =>
      simp only [versions]
      cases version f <;> simp [ih]
  have hins : ∀ (e : List Char × List Int) (l : List (List Char × List Int)),
      (l.map fun e => (join e.1, e.2)).orderedInsert
        (fun a b => versionCompare b.2 a.2 ≤ 0) (join e.1, e.2) =
      (l.orderedInsert (fun a b => versionCompare b.2 a.2 ≤ 0) e).map fun e => (join e.1, e.2) := by
    intro e l
    induction l with
    | nil => rfl
    | cons a l ih =>
      simp only [List.map_cons, List.orderedInsert_cons]
      split <;> simp [ih]
  have hsort : ∀ l : List (List Char × List Int),
      sortVersions (l.map fun e => (join e.1, e.2)) =
        (sortVersions l).map fun e => (join e.1, e.2) := by
    intro l
    induction l with
    | nil => rfl
    | cons a l ih =>
      simp only [sortVersions, List.map_cons, List.insertionSort_cons] at ih ⊢
      rw [ih, hins]
  obtain ⟨h1, h2, h3⟩ := C62_changelog id hid version fs hfs
  refine ⟨sortVersions (versions id version fs), ?_, fun f v => ?_, h2, h3, fun v => ?_⟩
  · rw [changelogLines, hver, hsort, List.map_map]
    rfl
  · rw [h1]
    constructor
    · rintro ⟨g, hg, rfl, hv⟩
      exact ⟨hg, hv⟩
    · rintro ⟨hf, hv⟩
      exact ⟨f, hf, rfl, hv⟩
  · rw [C62_stable]
    clear h1 h2 h3 hfs
    induction fs with
    | nil => rfl
    | cons f fs ih =>
      simp only [versions]
      cases hv : version f with
      | none => simp [hv, ih]
      | some u =>
        by_cases hu : u = v
        · subst hu
          simp [hv, ih]
        · simp [hv, hu, ih]

example : (changelogLines (versions id
      (versionOf (List.takeWhile (· ≠ '.')) Char.isAlpha demoInt '_')
      ["v1_9.md".toList, "README.md".toList, "v1_10.md".toList])).map String.ofList =
    ["Changelog\n=========\n", ".. mdinclude:: v1_10.md", ".. mdinclude:: v1_9.md", ""] := by
  decide +kernel

/-! ### The file of a version -/

/-- Components of a version joined by a character. -/
def joinWith (sep : Char) : List (List Char) → List Char
  | [] => []
  | [a] => a
  | a :: b :: l => a ++ sep :: joinWith sep (b :: l)

theorem splitChar_append (sep : Char) (a : List Char) (ha : sep ∉ a) (s : List Char) :
    splitChar sep (a ++ s) = (a ++ (splitChar sep s).1, (splitChar sep s).2) := by
  induction a with
  | nil => simp
  | cons c a ih =>
    simp only [List.mem_cons, not_or] at ha
    simp only [List.cons_append, splitChar, ih ha.2]
    rw [if_neg (Ne.symm ha.1)]

theorem split_joinWith (sep : Char) : ∀ l : List (List Char), l ≠ [] → (∀ a ∈ l, sep ∉ a) →
    split sep (joinWith sep l) = l
  | [], h, _ => absurd rfl h
  | [a], _, h => by
    have := splitChar_append sep a (h a (by simp)) []
    rw [List.append_nil] at this
    simp [split, joinWith, this, splitChar]
  | a :: b :: l, _, h => by
    have ih := split_joinWith sep (b :: l) (by simp) (fun c hc => h c (by simp [hc]))
    have h1 := splitChar_append sep a (h a (by simp)) (sep :: joinWith sep (b :: l))
    unfold split at ih ⊢
    rw [joinWith, h1]
    simp only [splitChar, if_true, List.append_nil]
    rw [ih]

theorem map_joinWith (l : List (List Char)) (h : ∀ a ∈ l, '.' ∉ a) :
    (joinWith '.' l).map (fun c => if c = '.' then '_' else c) = joinWith '_' l := by
  have hid : ∀ a : List Char, '.' ∉ a → a.map (fun c => if c = '.' then '_' else c) = a := by
    intro a ha
    conv_rhs => rw [← List.map_id a]
    refine List.map_congr_left fun c hc => ?_
    rw [if_neg]
    · rfl
    · rintro rfl; exact ha hc
  induction l with
  | nil => rfl
  | cons a l ih =>
    cases l with
    | nil => exact hid a (h a (by simp))
    | cons b l =>
      rw [joinWith, List.map_append, List.map_cons, hid a (h a (by simp)),
        ih (fun c hc => h c (by simp [hc]))]
      simp [joinWith]

/-- **C62** (file of a version): `extract_changelog` looks for the components of the version joined by
underscores, whatever follows them, if that does not begin with a digit, a dot or an underscore. -/
theorem C62_file (isDigit : Char → Bool) (comps : List (List Char))
    (hc : ∀ a ∈ comps, ∀ c ∈ a, isDigit c = true) (hdot : isDigit '.' = false) (rest : List Char)
    (hr : ∀ c ∈ rest.head?, isDigit c = false ∧ c ≠ '.' ∧ c ≠ '_') :
    changelogFile isDigit (joinWith '.' comps ++ rest) = 'v' :: joinWith '_' comps ++ ".md".toList := by
  have hnd : ∀ a ∈ comps, '.' ∉ a := by
    intro a ha hm
    rw [hc a ha _ hm] at hdot
    cases hdot
  have hall : ∀ c ∈ joinWith '_' comps, (c == '_' || isDigit c) = true := by
    clear hnd
    induction comps with
    | nil => intro c h; simp [joinWith] at h
    | cons a l ih =>
      have iha := ih (fun b hb => hc b (by simp [hb]))
      cases l with
      | nil => intro c h; simp [hc a (by simp) c h]
      | cons b l =>
        intro c h
        simp only [joinWith, List.mem_append, List.mem_cons] at h
        rcases h with h | rfl | h
        · simp [hc a (by simp) c h]
        · simp
        · exact iha c h
  unfold changelogFile
  rw [List.map_append, map_joinWith comps hnd, List.takeWhile_append_of_pos hall]
  congr 2
  cases rest with
  | nil => simp
  | cons c rest =>
    obtain ⟨h1, h2, h3⟩ := hr c (by simp)
    rw [List.map_cons, if_neg h2, List.takeWhile_cons_of_neg (by simp [h1, h3]), List.append_nil]

example : changelogFile Char.isDigit "1.10.3-rc1".toList = "v1_10_3.md".toList := by decide +kernel

/-- **C62** (finding): a dot after the last number, as in development versions, stays in the name. -/
theorem C62_file_dev : changelogFile Char.isDigit "2.1.0.dev1".toList = "v2_1_0_.md".toList := by
  decide +kernel

/-- **C62** (both scripts): the file that `extract_changelog` looks for is read by `make_changelog` as the
same version. -/
theorem C62_agree (isDigit isAlpha : Char → Bool) (parseInt : List Char → Option Int)
    (stem : List Char → List Char) (hstem : ∀ s, '.' ∉ s → stem (s ++ ".md".toList) = s)
    (hv : isAlpha 'v' = true) (comps : List (List Char)) (ns : List Int) (hne : comps ≠ [])
    (hc : ∀ a ∈ comps, a ≠ [] ∧ ∀ c ∈ a, isDigit c = true) (hdot : isDigit '.' = false)
    (hund : isDigit '_' = false) (hda : ∀ c, isDigit c = true → isAlpha c = false)
    (hp : comps.map parseInt = ns.map some) (rest : List Char)
    (hr : ∀ c ∈ rest.head?, isDigit c = false ∧ c ≠ '.' ∧ c ≠ '_') :
    versionOf stem isAlpha parseInt '_' (changelogFile isDigit (joinWith '.' comps ++ rest)) =
      some ns := by
  rw [C62_file isDigit comps (fun a ha => (hc a ha).2) hdot rest hr]
  have hnd : '.' ∉ 'v' :: joinWith '_' comps := by
    simp only [List.mem_cons, not_or]
    refine ⟨by decide, ?_⟩
    clear hp hne
    induction comps with
    | nil => simp [joinWith]
    | cons a l ih =>
      have ha : '.' ∉ a := fun h => by rw [(hc a (by simp)).2 _ h] at hdot; cases hdot
      cases l with
      | nil => exact ha
      | cons b l =>
        simp only [joinWith, List.mem_append, List.mem_cons, not_or]
        exact ⟨ha, by decide, ih (fun b hb => hc b (by simp [hb]))⟩
  have hdrop : ('v' :: joinWith '_' comps).dropWhile isAlpha = joinWith '_' comps := by
    rw [List.dropWhile_cons_of_pos hv]
    obtain ⟨a, l, rfl⟩ := List.exists_cons_of_ne_nil hne
    obtain ⟨h1, h2⟩ := hc a (by simp)
    obtain ⟨c, a', rfl⟩ := List.exists_cons_of_ne_nil h1
    have : isAlpha c = false := hda c (h2 c (by simp))
    cases l with
    | nil => simp [joinWith, this]
    | cons b l => simp [joinWith, this]
  have hmap : ∀ (l : List (List Char)) (ns : List Int), l.map parseInt = ns.map some →
      mapInt parseInt l = some ns := by
    intro l
    induction l with
    | nil => intro ns h; cases ns <;> simp_all [mapInt]
    | cons a l ih =>
      intro ns h
      cases ns with
      | nil => simp at h
      | cons n ns =>
        simp only [List.map_cons, List.cons.injEq] at h
        simp [mapInt, h.1, ih ns h.2]
  unfold versionOf
  rw [hstem _ hnd, hdrop, split_joinWith '_' comps hne, hmap comps ns hp]
  intro a ha h
  rw [(hc a ha).2 _ h] at hund
  cases hund

example : versionOf (List.takeWhile (· ≠ '.')) Char.isAlpha demoInt '_'
    (changelogFile Char.isDigit "1.10.3".toList) = some [1, 10, 3] := by decide +kernel

/-- **C62** (text of a version): all lines but the first are written, in order. -/
theorem C62_extract (fin : List (List Char)) : extractLoop false fin = fin.tail := by
  have h : ∀ l, extractLoop true l = l := by
    intro l
    induction l with
    | nil => rfl
    | cons r l ih => simp [extractLoop, ih]
  cases fin with
  | nil => rfl
  | cons r fin => simp [extractLoop, h]

example : extractLoop false ["# v1".toList, "a".toList, "b".toList] = ["a".toList, "b".toList] := by
  decide +kernel

end Verif.Scripts
