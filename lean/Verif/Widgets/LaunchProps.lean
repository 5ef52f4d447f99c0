import Verif.Widgets.LaunchModel

/-!
# C99: start, reload and end of the GUI
-/

set_option autoImplicit false
set_option linter.unusedSectionVars false
set_option linter.unusedSimpArgs false

namespace Verif.Gui

variable {D A : Type}

/-- The child puts `False`. -/
def Closes (su : Setup D A) (f : Files D A) (l : Launch D A) : Prop := Step.put false ∈ done su f l

/-- The files after some children. -/
def filesAt (su : Setup D A) (f : Files D A) (ls : List (Launch D A)) : Files D A :=
  ls.foldl (filesAfter su) f

theorem session_messages (a : A) (es : List (Event D A)) :
    (session a es).filterMap Step.message = [] ∨
      ((session a es).filterMap Step.message = [false] ∧ ∃ pre, session a es = pre ++ [Step.put false] ∧
        pre.filterMap Step.message = []) := by
  induction es generalizing a with
  | nil => exact Or.inl rfl
  | cons e es ih =>
    cases e with
    | audio b => exact ih b
    | close => exact Or.inr ⟨rfl, [], rfl, rfl⟩
    | apply d r =>
      cases r with
      | true => exact Or.inl rfl
      | false =>
        rcases ih a with h | ⟨h, pre, h1, h2⟩
        · exact Or.inl (by simpa [session, saveSettings, Step.message] using h)
        · exact Or.inr ⟨h, saveSettings d ++ pre, by simp [session, saveSettings, h1],
            by simpa [saveSettings, Step.message] using h2⟩

theorem emptyWindow_messages (es : List (Event D A)) :
    (emptyWindow es = [] ∨ emptyWindow es = [.put false]) := by
  induction es with
  | nil => exact Or.inl rfl
  | cons e es ih => cases e <;> first | exact ih | exact Or.inr rfl

/-- At most one message, the last step. -/
theorem steps_messages (su : Setup D A) (f : Files D A) (l : Launch D A) :
    (steps su f l).filterMap Step.message = [] ∨
      ∃ pre, steps su f l = pre ++ [Step.put false] ∧ pre.filterMap Step.message = [] := by
  unfold steps
  have hw : (emptyWindow l.events).filterMap Step.message = [] ∨
      ∃ pre, emptyWindow l.events = pre ++ [Step.put false] ∧ pre.filterMap (Step.message (D := D) (A := A)) = [] := by
    rcases emptyWindow_messages l.events with h | h
    · exact Or.inl (by rw [h]; rfl)
    · exact Or.inr ⟨[], h, rfl⟩
  split
  · split
    · exact Or.inl rfl
    · split
      · exact hw
      · rename_i s _ a _
        split
        · exact hw
        · rename_i s' _
          have hd : (saveSettings s' ++ clearCache f.cache : List (Step D A)).filterMap Step.message = [] := by
            cases f.cache <;> rfl
          rcases session_messages a l.events with h | ⟨-, pre, h1, h2⟩
          · exact Or.inl (by rw [List.filterMap_append, hd, h]; rfl)
          · exact Or.inr ⟨saveSettings s' ++ clearCache f.cache ++ pre, by simp only [h1, List.append_assoc],
              by rw [List.filterMap_append, hd, h2]; rfl⟩
  · exact Or.inl rfl

theorem put_mem {s : List (Step D A)} {b : Bool} : Step.put b ∈ s ↔ b ∈ s.filterMap Step.message := by
  rw [List.mem_filterMap]
  constructor
  · exact fun h => ⟨_, h, rfl⟩
  · rintro ⟨x, h1, h2⟩
    cases x <;> cases h2
    exact h1

theorem messages_cases (su : Setup D A) (f : Files D A) (l : Launch D A) :
    (Closes su f l ∧ messages su f l = [false]) ∨ (¬ Closes su f l ∧ messages su f l = []) := by
  have key : ∀ s : List (Step D A), (s.filterMap Step.message = [] ∨ s.filterMap Step.message = [false]) →
      (Step.put false ∈ s ∧ s.filterMap Step.message = [false]) ∨
        (¬ Step.put false ∈ s ∧ s.filterMap Step.message = []) := by
    intro s h
    rcases h with h | h
    · exact Or.inr ⟨by rw [put_mem, h]; simp, h⟩
    · exact Or.inl ⟨by rw [put_mem, h]; simp, h⟩
  apply key
  unfold done
  have hfull : (steps su f l).filterMap Step.message = [] ∨ (steps su f l).filterMap Step.message = [false] := by
    rcases steps_messages su f l with h | ⟨pre, h1, h2⟩
    · exact Or.inl h
    · exact Or.inr (by rw [h1, List.filterMap_append, h2]; rfl)
  split
  · exact hfull
  · rename_i n _
    rcases steps_messages su f l with h | ⟨pre, h1, h2⟩
    · left
      exact List.eq_nil_of_sublist_nil (h ▸ (List.take_sublist n _).filterMap _)
    · rw [h1, List.take_append, List.filterMap_append]
      have : (pre.take n).filterMap Step.message = [] :=
        List.eq_nil_of_sublist_nil (h2 ▸ (List.take_sublist n _).filterMap _)
      rw [this]
      cases n - pre.length with
      | zero => exact Or.inl rfl
      | succ k => exact Or.inr (by simp [Step.message])

open Classical in
theorem mainLoop_cons (su : Setup D A) (n : Nat) (f : Files D A) (l : Launch D A) (ls : List (Launch D A)) :
    mainLoop su n [] f (l :: ls) =
      if Closes su f l then ⟨n + 1, true, filesAfter su f l⟩ else mainLoop su (n + 1) [] (filesAfter su f l) ls := by
  rcases messages_cases su f l with ⟨h1, h2⟩ | ⟨h1, h2⟩
  · rw [if_pos h1, mainLoop, h2]
    · cases ls <;> rfl
    · simp
  · rw [if_neg h1, mainLoop, h2]
    · rfl
    · simp

/-- The main program ends exactly when a child has put `False`, and then at once: the GUI is started again after
every other end of a child. -/
theorem C99_ends (su : Setup D A) (f : Files D A) (ls : List (Launch D A)) :
    ((mainLoop su 0 [] f ls).ended = true ↔
      ∃ pre l post, ls = pre ++ l :: post ∧ Closes su (filesAt su f pre) l) ∧
      ∀ pre l post, ls = pre ++ l :: post → Closes su (filesAt su f pre) l →
        (∀ pre' l' post', pre = pre' ++ l' :: post' → ¬ Closes su (filesAt su f pre') l') →
        (mainLoop su 0 [] f ls).launches = pre.length + 1 ∧
          (mainLoop su 0 [] f ls).files = filesAt su f (pre ++ [l]) := by
  have main : ∀ (ls : List (Launch D A)) (n : Nat) (f : Files D A),
      ((mainLoop su n [] f ls).ended = true ↔
        ∃ pre l post, ls = pre ++ l :: post ∧ Closes su (filesAt su f pre) l) ∧
      ∀ pre l post, ls = pre ++ l :: post → Closes su (filesAt su f pre) l →
        (∀ pre' l' post', pre = pre' ++ l' :: post' → ¬ Closes su (filesAt su f pre') l') →
        (mainLoop su n [] f ls).launches = n + (pre.length + 1) ∧
          (mainLoop su n [] f ls).files = filesAt su f (pre ++ [l]) := by
    intro ls
    induction ls with
    | nil =>
      intro n f
      constructor
      · constructor
        · intro h; cases h
        · rintro ⟨pre, l, post, h, -⟩
          cases pre <;> cases h
      · intro pre l post h
        cases pre <;> cases h
    | cons l0 ls ih =>
      intro n f
      obtain ⟨ih1, ih2⟩ := ih (n + 1) (filesAfter su f l0)
      rw [mainLoop_cons]
      by_cases hc : Closes su f l0
      · rw [if_pos hc]
        constructor
        · exact ⟨fun _ => ⟨[], l0, ls, rfl, hc⟩, fun _ => rfl⟩
        · intro pre l post h hcl hmin
          cases pre with
          | nil => cases h; exact ⟨rfl, rfl⟩
          | cons p pre =>
            cases h
            exact absurd hc (hmin [] l0 pre rfl)
      · rw [if_neg hc]
        constructor
        · rw [ih1]
          constructor
          · rintro ⟨pre, l, post, rfl, h⟩
            exact ⟨l0 :: pre, l, post, rfl, h⟩
          · rintro ⟨pre, l, post, h, hcl⟩
            cases pre with
            | nil => cases h; exact absurd hcl hc
            | cons p pre => cases h; exact ⟨pre, l, post, rfl, hcl⟩
        · intro pre l post h hcl hmin
          cases pre with
          | nil => cases h; exact absurd hcl hc
          | cons p pre =>
            cases h
            obtain ⟨g1, g2⟩ := ih2 pre l post rfl hcl
              (fun pre' l' post' e => by
                have := hmin (l0 :: pre') l' post' (by rw [e]; rfl)
                exact this)
            refine ⟨by rw [g1]; simp only [List.length_cons]; omega, g2⟩
  refine ⟨(main ls 0 f).1, fun pre l post h1 h2 h3 => ?_⟩
  obtain ⟨g1, g2⟩ := (main ls 0 f).2 pre l post h1 h2 h3
  exact ⟨by rw [g1]; omega, g2⟩

/-- A child puts `False` only if the user closes a window, which needs settings that can be read. -/
theorem C99_closing {su : Setup D A} {f : Files D A} {l : Launch D A} (h : Closes su f l) :
    l.starts = true ∧ Event.close ∈ l.events ∧ f.settings ≠ .broken := by
  have h' : Step.put false ∈ steps su f l := by
    unfold Closes done at h
    split at h
    · exact h
    · exact List.mem_of_mem_take h
  have hs : ∀ (es : List (Event D A)) (a : A), Step.put false ∈ session a es → Event.close ∈ es := by
    intro es
    induction es with
    | nil => intro a h; cases h
    | cons e es ih =>
      intro a h
      cases e with
      | audio b => exact List.mem_cons_of_mem _ (ih b h)
      | close => exact List.mem_cons_self
      | apply d r =>
        cases r with
        | true => simp [session, saveSettings, saveCache] at h
        | false =>
          refine List.mem_cons_of_mem _ (ih a ?_)
          simpa [session, saveSettings] using h
  have hw : ∀ es : List (Event D A), Step.put false ∈ emptyWindow es → Event.close ∈ es := by
    intro es
    induction es with
    | nil => intro h; cases h
    | cons e es ih =>
      intro h
      cases e with
      | close => exact List.mem_cons_self
      | audio b => exact List.mem_cons_of_mem _ (ih h)
      | apply d r => exact List.mem_cons_of_mem _ (ih h)
  unfold steps at h'
  split at h'
  · rename_i hst
    have hb : f.settings ≠ .broken := by
      intro e
      simp [e, File.read] at h'
    refine ⟨hst, ?_, hb⟩
    split at h'
    · cases h'
    · split at h'
      · exact hw _ h'
      · split at h'
        · exact hw _ h'
        · rcases List.mem_append.1 h' with g | g
          · exfalso
            revert g
            cases f.cache <;> simp [saveSettings, clearCache]
          · exact hs _ _ g
  · cases h'

/-- The user has not asked for a reload. -/
def NoReload (es : List (Event D A)) : Prop := ∀ d, Event.apply d true ∉ es

theorem session_close (a : A) {es : List (Event D A)} (h : NoReload es) (rest : List (Event D A)) :
    Step.put false ∈ session a (es ++ .close :: rest) := by
  induction es generalizing a with
  | nil => exact List.mem_singleton.2 rfl
  | cons e es ih =>
    have h' : NoReload es := fun d hd => h d (List.mem_cons_of_mem _ hd)
    cases e with
    | audio b => exact ih b h'
    | close => exact List.mem_singleton.2 rfl
    | apply d r =>
      cases r with
      | true => exact absurd List.mem_cons_self (h d)
      | false =>
        show Step.put false ∈ saveSettings d ++ session a (es ++ .close :: rest)
        exact List.mem_append_right _ (ih a h')

/-- When the settings can be read and the child lives, closing the window ends the program. -/
theorem C99_close_ends (su : Setup D A) (f : Files D A) (es rest : List (Event D A)) (h : f.settings ≠ .broken)
    (hes : NoReload es) : Closes su f ⟨true, es ++ .close :: rest, none⟩ := by
  have hw : Step.put false ∈ emptyWindow (es ++ .close :: rest) := by
    clear hes
    induction es with
    | nil => exact List.mem_singleton.2 rfl
    | cons e es ih => cases e <;> first | exact ih | exact List.mem_singleton.2 rfl
  show Step.put false ∈ steps su f _
  unfold steps
  simp only [if_true]
  split
  · rename_i hr
    cases hf : f.settings with
    | missing => rw [hf] at hr; cases hr
    | good x => rw [hf] at hr; cases hr
    | broken => exact absurd hf h
  · split
    · exact hw
    · split
      · exact hw
      · exact List.mem_append_right _ (session_close _ hes rest)

theorem filesAfter_broken (su : Setup D A) {f : Files D A} (h : f.settings = .broken) (l : Launch D A) :
    done su f l = [] ∧ filesAfter su f l = f := by
  have : steps su f l = [] := by
    unfold steps
    simp [h, File.read]
  have hd : done su f l = [] := by
    unfold done
    split <;> simp [this]
  exact ⟨hd, by rw [filesAfter, hd]; rfl⟩

/-- If the settings file cannot be read, the main program never ends, whatever the user does: there is no window to
close, every child ends without a message, and the file stays as it is. -/
theorem C99_stuck (su : Setup D A) (f : Files D A) (h : f.settings = .broken) (ls : List (Launch D A)) :
    (mainLoop su 0 [] f ls).ended = false ∧ (mainLoop su 0 [] f ls).launches = ls.length ∧
      (mainLoop su 0 [] f ls).files = f := by
  have main : ∀ (ls : List (Launch D A)) (n : Nat),
      (mainLoop su n [] f ls).ended = false ∧ (mainLoop su n [] f ls).launches = n + ls.length ∧
        (mainLoop su n [] f ls).files = f := by
    intro ls
    induction ls with
    | nil => exact fun n => ⟨rfl, rfl, rfl⟩
    | cons l ls ih =>
      intro n
      obtain ⟨h1, h2⟩ := filesAfter_broken su h l
      have hc : ¬ Closes su f l := by unfold Closes; rw [h1]; simp
      rw [mainLoop_cons, if_neg hc, h2]
      obtain ⟨g1, g2, g3⟩ := ih (n + 1)
      exact ⟨g1, by rw [g2]; simp only [List.length_cons]; omega, g3⟩
  obtain ⟨g1, g2, g3⟩ := main ls 0
  exact ⟨g1, by rw [g2]; omega, g3⟩

/-- Each start of the GUI can bring this about: it writes the settings, and when it is killed in between, no later
child ever shows a window. -/
theorem C99_killed (su : Setup D A) (f : Files D A) {s : D} {a : A} (h : started su f = some (s, a))
    (es : List (Event D A)) (ls : List (Launch D A)) :
    (filesAfter su f ⟨true, es, some 1⟩).settings = .broken ∧
      (mainLoop su 0 [] f (⟨true, es, some 1⟩ :: ls)).ended = false ∧
      (mainLoop su 0 [] f (⟨true, es, some 1⟩ :: ls)).launches = ls.length + 1 := by
  have hsteps : ∃ rest, steps su f ⟨true, es, some 1⟩ = .openSettings :: rest := by
    unfold started at h
    unfold steps
    simp only [if_true]
    split at h
    · rename_i s0 a0 h1 h2
      rw [h1, h2]
      simp only [Option.map_eq_some_iff] at h
      obtain ⟨s1, h3, h4⟩ := h
      simp only [h3]
      exact ⟨_, rfl⟩
    · cases h
  obtain ⟨rest, hr⟩ := hsteps
  have hd : done su f ⟨true, es, some 1⟩ = [.openSettings] := by
    simp [done, hr]
  have hb : (filesAfter su f ⟨true, es, some 1⟩).settings = .broken := by
    rw [filesAfter, hd]; rfl
  have hc : ¬ Closes su f ⟨true, es, some 1⟩ := by
    unfold Closes; rw [hd]; simp
  refine ⟨hb, ?_⟩
  rw [mainLoop_cons, if_neg hc]
  have main : ∀ (ls : List (Launch D A)) (n : Nat) (f : Files D A), f.settings = .broken →
      (mainLoop su n [] f ls).ended = false ∧ (mainLoop su n [] f ls).launches = n + ls.length := by
    intro ls
    induction ls with
    | nil => exact fun n f _ => ⟨rfl, rfl⟩
    | cons l ls ih =>
      intro n f h
      obtain ⟨h1, h2⟩ := filesAfter_broken su h l
      have hc : ¬ Closes su f l := by unfold Closes; rw [h1]; simp
      rw [mainLoop_cons, if_neg hc, h2]
      obtain ⟨g1, g2⟩ := ih (n + 1) f h
      exact ⟨g1, by rw [g2]; simp only [List.length_cons]; omega⟩
  obtain ⟨g1, g2⟩ := main ls (0 + 1) _ hb
  exact ⟨g1, by rw [g2]; omega⟩

/-! ## Files -/

theorem session_files (es : List (Event D A)) (a : A) (f : Files D A) (hf : f.settings ≠ .broken) :
    ((session a es).foldl Step.onFiles f).settings ≠ .broken := by
  induction es generalizing a f with
  | nil => exact hf
  | cons e es ih =>
    cases e with
    | audio b => exact ih b f hf
    | close => exact hf
    | apply d r =>
      cases r with
      | true => simp [session, saveSettings, saveCache, Step.onFiles]
      | false =>
        simp only [session, saveSettings, List.cons_append, List.nil_append, List.foldl_cons, Bool.false_eq_true,
          if_false]
        exact ih a _ (by simp [Step.onFiles])

theorem emptyWindow_files (es : List (Event D A)) (f : Files D A) :
    (emptyWindow es).foldl Step.onFiles f = f := by
  rcases emptyWindow_messages es with h | h <;> rw [h] <;> rfl

/-- A child that is not killed leaves settings that can be read. -/
theorem C99_settings_kept (su : Setup D A) (f : Files D A) (hf : f.settings ≠ .broken) (l : Launch D A)
    (hl : l.killed = none) : (filesAfter su f l).settings ≠ .broken := by
  unfold filesAfter done
  rw [hl]
  simp only
  unfold steps
  split
  · split
    · exact hf
    · split
      · rw [emptyWindow_files]; exact hf
      · split
        · rw [emptyWindow_files]; exact hf
        · rw [List.foldl_append]
          apply session_files
          cases f.cache <;> simp [saveSettings, clearCache, Step.onFiles]
  · exact hf

/-- The settings the user applies. -/
def applied : List (Event D A) → List D
  | [] => []
  | .apply d _ :: es => d :: applied es
  | _ :: es => applied es

/-- Whenever a child is killed, the settings file is as before, cannot be read, or has the settings of the start
or settings the user has applied: never a mixture. -/
theorem C99_settings_atomic (su : Setup D A) (f : Files D A) (l : Launch D A) :
    let s := (filesAfter su f l).settings
    s = f.settings ∨ s = .broken ∨ ∃ d, s = .good d ∧
      ((∃ a, started su f = some (d, a)) ∨ d ∈ applied l.events) := by
  have key : ∀ (ss : List (Step D A)) (P : D → Prop), (∀ d, Step.writeSettings d ∈ ss → P d) →
      ∀ f : Files D A, (ss.foldl Step.onFiles f).settings = f.settings ∨
        (ss.foldl Step.onFiles f).settings = .broken ∨ ∃ d, (ss.foldl Step.onFiles f).settings = .good d ∧ P d := by
    intro ss P
    induction ss with
    | nil => exact fun _ f => Or.inl rfl
    | cons x ss ih =>
      intro hP f
      have hx := ih (fun d hd => hP d (List.mem_cons_of_mem _ hd)) (x.onFiles f)
      simp only [List.foldl_cons]
      rcases hx with h | h | h
      · cases x with
        | openSettings => exact Or.inr (Or.inl h)
        | writeSettings d => exact Or.inr (Or.inr ⟨d, h, hP d List.mem_cons_self⟩)
        | openCache => exact Or.inl h
        | writeCache a => exact Or.inl h
        | deleteCache => exact Or.inl h
        | put b => exact Or.inl h
      · exact Or.inr (Or.inl h)
      · exact Or.inr (Or.inr h)
  have hses : ∀ (es : List (Event D A)) (a : A) (d : D), Step.writeSettings d ∈ session a es → d ∈ applied es := by
    intro es
    induction es with
    | nil => intro a d h; cases h
    | cons e es ih =>
      intro a d h
      cases e with
      | audio b => exact ih b d h
      | close => simp [session] at h
      | apply d' r =>
        cases r with
        | true =>
          simp [session, saveSettings, saveCache] at h
          simp [applied, h]
        | false =>
          simp [session, saveSettings] at h
          rcases h with h | h
          · simp [applied, h]
          · exact List.mem_cons_of_mem _ (ih a d h)
  have hmem : ∀ d, Step.writeSettings d ∈ steps su f l →
      (∃ a, started su f = some (d, a)) ∨ d ∈ applied l.events := by
    intro d h
    have hw : ¬ Step.writeSettings d ∈ emptyWindow l.events := by
      rcases emptyWindow_messages l.events with h | h <;> rw [h] <;> simp
    unfold steps at h
    split at h
    · split at h
      · cases h
      · rename_i s0 hs0
        split at h
        · exact absurd h hw
        · rename_i a0 ha0
          split at h
          · exact absurd h hw
          · rename_i s1 hs1
            rcases List.mem_append.1 h with g | g
            · left
              refine ⟨a0, ?_⟩
              have : d = s1 := by
                revert g
                cases f.cache <;> simp [saveSettings, clearCache]
              rw [this]
              simp [started, hs0, ha0, hs1]
            · exact Or.inr (hses _ _ _ g)
    · cases h
  refine key (done su f l) _ (fun d hd => hmem d ?_) f
  unfold done at hd
  split at hd
  · exact hd
  · exact List.mem_of_mem_take hd

/-- The audio state after some events. -/
def audioAfter (a : A) : List (Event D A) → A
  | [] => a
  | .audio b :: es => audioAfter b es
  | _ :: es => audioAfter a es

theorem session_reload (es : List (Event D A)) (a : A) (f : Files D A) (d : D) (rest : List (Event D A))
    (h1 : NoReload es) (h2 : Event.close ∉ es) :
    (session a (es ++ .apply d true :: rest)).foldl Step.onFiles f =
      ⟨.good d, .good (audioAfter a es)⟩ ∧ Step.put false ∉ session a (es ++ .apply d true :: rest) := by
  induction es generalizing a f with
  | nil => exact ⟨rfl, by simp [session, saveSettings, saveCache]⟩
  | cons e es ih =>
    have h1' : NoReload es := fun d hd => h1 d (List.mem_cons_of_mem _ hd)
    have h2' : Event.close ∉ es := fun h => h2 (List.mem_cons_of_mem _ h)
    cases e with
    | audio b => exact ih b f h1' h2'
    | close => exact absurd List.mem_cons_self h2
    | apply d' r =>
      cases r with
      | true => exact absurd List.mem_cons_self (h1 d')
      | false =>
        obtain ⟨g1, g2⟩ := ih a ⟨.good d', f.cache⟩ h1' h2'
        refine ⟨?_, ?_⟩
        · exact g1
        · show Step.put false ∉ saveSettings d' ++ session a (es ++ .apply d true :: rest)
          simpa [saveSettings] using g2

/-- A reload keeps the state: after the user has applied settings with another theme and asked for a reload, the GUI
is started again, with these settings and with the audio and trim bounds there were. -/
theorem C99_reload (su : Setup D A) (f : Files D A) {s : D} {a : A} (h : started su f = some (s, a))
    (es rest : List (Event D A)) (d : D) (h1 : NoReload es) (h2 : Event.close ∉ es) (hd : su.adapt d = some d) :
    let l : Launch D A := ⟨true, es ++ .apply d true :: rest, none⟩
    ¬ Closes su f l ∧ filesAfter su f l = ⟨.good d, .good (audioAfter a es)⟩ ∧
      started su (filesAfter su f l) = some (d, audioAfter a es) := by
  intro l
  have hsteps : ∃ pre, done su f l = pre ++ session a (es ++ .apply d true :: rest) ∧ Step.put false ∉ pre := by
    unfold started at h
    show ∃ pre, steps su f l = _ ∧ _
    unfold steps
    have hl : l.starts = true := rfl
    rw [if_pos hl]
    split at h
    · rename_i s0 a0 e1 e2
      rw [e1, e2]
      simp only [Option.map_eq_some_iff] at h
      obtain ⟨s1, e3, e4⟩ := h
      cases e4
      simp only [e3]
      refine ⟨_, rfl, ?_⟩
      cases f.cache <;> simp [saveSettings, clearCache]
    · cases h
  obtain ⟨pre, hp, hpre⟩ := hsteps
  have hfiles : filesAfter su f l = ⟨.good d, .good (audioAfter a es)⟩ := by
    rw [filesAfter, hp, List.foldl_append]
    exact (session_reload es a _ d rest h1 h2).1
  refine ⟨?_, hfiles, ?_⟩
  · unfold Closes
    rw [hp, List.mem_append]
    rintro (g | g)
    · exact hpre g
    · exact (session_reload es a f d rest h1 h2).2 g
  · rw [hfiles]
    simp [started, File.read, hd]

/-- The cache is used once: if the GUI starts and lives to its end, without a reload, there is no cache left, so
that the next start is without audio. -/
theorem C99_cache_once (su : Setup D A) (f : Files D A) {s : D} {a : A} (h : started su f = some (s, a))
    (es : List (Event D A)) (h1 : NoReload es) :
    (filesAfter su f ⟨true, es, none⟩).cache = .missing := by
  have hs : ∀ (es : List (Event D A)) (a : A) (f : Files D A), NoReload es → f.cache = .missing →
      ((session a es).foldl Step.onFiles f).cache = .missing := by
    intro es
    induction es with
    | nil => exact fun _ _ _ h => h
    | cons e es ih =>
      intro a f h1 hf
      have h1' : NoReload es := fun d hd => h1 d (List.mem_cons_of_mem _ hd)
      cases e with
      | audio b => exact ih b f h1' hf
      | close => exact hf
      | apply d r =>
        cases r with
        | true => exact absurd List.mem_cons_self (h1 d)
        | false => exact ih a _ h1' hf
  unfold started at h
  show ((steps su f _).foldl Step.onFiles f).cache = _
  unfold steps
  rw [if_pos rfl]
  split at h
  · rename_i s0 a0 e1 e2
    rw [e1, e2]
    simp only [Option.map_eq_some_iff] at h
    obtain ⟨s1, e3, e4⟩ := h
    simp only [e3]
    rw [List.foldl_append]
    apply hs _ _ _ h1
    cases hc : f.cache <;> simp [saveSettings, clearCache, Step.onFiles, hc]
  · cases h

/-- A cache that cannot be read is never removed: every later start is a window without tabs, whatever the user does,
and no file ever changes. -/
theorem C99_broken_cache (su : Setup D A) (f : Files D A) (h : f.cache = .broken) (ls : List (Launch D A)) :
    filesAt su f ls = f ∧ started su (filesAt su f ls) = none := by
  have one : ∀ l, filesAfter su f l = f := by
    intro l
    have hst : (∀ g : Files D A, (steps su f l).foldl Step.onFiles g = g) ∧
        ∀ n, ∀ g : Files D A, ((steps su f l).take n).foldl Step.onFiles g = g := by
      have hcase : steps su f l = [] ∨ steps su f l = [.put false] := by
        unfold steps
        split
        · split
          · exact Or.inl rfl
          · rw [h]
            exact emptyWindow_messages _
        · exact Or.inl rfl
      rcases hcase with e | e <;> rw [e]
      · exact ⟨fun _ => rfl, fun n _ => by simp⟩
      · refine ⟨fun _ => rfl, fun n g => ?_⟩
        cases n with
        | zero => rfl
        | succ n => simp [Step.onFiles]
    unfold filesAfter done
    split
    · exact hst.1 f
    · exact hst.2 _ f
  have hall : filesAt su f ls = f := by
    induction ls with
    | nil => rfl
    | cons l ls ih =>
      show filesAt su (filesAfter su f l) ls = f
      rw [one l]
      exact ih
  refine ⟨hall, ?_⟩
  rw [hall]
  unfold started
  rw [h]
  cases f.settings <;> rfl

/-! ## Cases -/

/-- Settings are numbers (more than 100 raises), the audio is a number. -/
def demoSetup : Setup Nat Nat := ⟨1, fun d => if d ≤ 100 then some d else none, 0⟩

/-- Reload with settings 5 and audio 7, death without display, then the window is closed: three children, the program
ends; nothing is left in the cache. -/
example :
    let o := mainLoop demoSetup 0 [] ⟨.missing, .missing⟩
      [⟨true, [.audio 7, .apply 5 true], none⟩, ⟨false, [], none⟩, ⟨true, [.apply 6 false, .close], none⟩,
        ⟨true, [], none⟩]
    o.launches = 3 ∧ o.ended = true ∧ o.files = ⟨.good 6, .missing⟩ := by
  decide +kernel

/-- The second child of this history starts with settings 5 and audio 7. -/
example : started demoSetup (filesAt demoSetup ⟨.missing, .missing⟩ [⟨true, [.audio 7, .apply 5 true], none⟩]) =
    some (5, 7) := by
  decide +kernel

/-- Killed while the settings are written: two later children that the user tries to close do not help. -/
example :
    let o := mainLoop demoSetup 0 [] ⟨.good 5, .missing⟩
      [⟨true, [], some 1⟩, ⟨true, [.close], none⟩, ⟨true, [.close], none⟩]
    o.launches = 3 ∧ o.ended = false ∧ o.files = ⟨.broken, .missing⟩ := by
  decide +kernel

/-- Killed while the cache is written: afterwards the window has no tabs. -/
example :
    let f := filesAt demoSetup ⟨.good 5, .missing⟩ [⟨true, [.audio 7, .apply 6 true], some 5⟩]
    f = ⟨.good 6, .broken⟩ ∧ started demoSetup f = none := by
  decide +kernel

/-- Settings that raise: the window can be closed. -/
example : (mainLoop demoSetup 0 [] ⟨.good 200, .missing⟩ [⟨true, [.apply 5 false, .close], none⟩]).ended = true := by
  decide +kernel

end Verif.Gui
