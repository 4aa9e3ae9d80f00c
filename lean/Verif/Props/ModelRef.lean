import Verif.Model.ModelRef

/-! # C24 - C26 -/

namespace Verif.ModelRef

/-! ## Splitting -/

theorem splitChar_ne_nil (c : Char) (s : Str) : splitChar c s ≠ [] := by
  cases s with
  | nil => simp [splitChar]
  | cons x xs =>
    simp only [splitChar]
    split
    · simp
    · split <;> simp

theorem splitChar_none {c : Char} : ∀ {s : Str}, c ∉ s → splitChar c s = [s] := by
  intro s
  induction s with
  | nil => intro _; rfl
  | cons x xs ih =>
    intro h
    have h1 : x ≠ c := fun e => h (by simp [e])
    simp [splitChar, h1, ih (fun e => h (by simp [e]))]

theorem splitChar_append {c : Char} : ∀ {a : Str} (b : Str), c ∉ a →
    splitChar c (a ++ c :: b) = a :: splitChar c b := by
  intro a
  induction a with
  | nil => intro b _; simp [splitChar]
  | cons x xs ih =>
    intro b h
    have h1 : x ≠ c := fun e => h (by simp [e])
    simp [splitChar, h1, ih b (fun e => h (by simp [e]))]

/-- Splitting loses nothing. -/
theorem splitChar_join (c : Char) : ∀ (s : Str), [c].intercalate (splitChar c s) = s ∧
    (splitChar c s).length = s.count c + 1 ∧ ∀ p ∈ splitChar c s, c ∉ p := by
  intro s
  induction s with
  | nil => simp [splitChar, List.intercalate]
  | cons x xs ih =>
    obtain ⟨h1, h2, h3⟩ := ih
    simp only [splitChar]
    split
    · rename_i hx
      subst hx
      refine ⟨?_, by simp [h2], by simpa using h3⟩
      cases hs : splitChar x xs with
      | nil => exact absurd hs (splitChar_ne_nil _ _)
      | cons p ps =>
        rw [hs] at h1
        simp only [List.intercalate, List.intersperse_cons₂, List.flatten_cons, List.nil_append,
          List.singleton_append, List.cons.injEq, true_and] at h1 ⊢
        exact h1
    · rename_i hx
      cases hs : splitChar c xs with
      | nil => exact absurd hs (splitChar_ne_nil _ _)
      | cons p ps =>
        rw [hs] at h1 h2 h3
        refine ⟨?_, ?_, ?_⟩
        · simp only
          cases ps with
          | nil =>
            simp only [List.intercalate, List.intersperse_single, List.flatten_cons, List.flatten_nil,
              List.append_nil] at h1 ⊢
            rw [h1]
          | cons q qs =>
            simp only [List.intercalate, List.intersperse_cons₂, List.flatten_cons] at h1 ⊢
            rw [← h1]; simp
        · simp only [List.length_cons] at h2 ⊢
          rw [List.count_cons_of_ne (Ne.symm (Ne.symm hx))]; exact h2
        · intro q hq
          rcases List.mem_cons.1 hq with rfl | hq
          · simp only [List.mem_cons, not_or]
            exact ⟨fun e => hx e.symm, h3 p (by simp)⟩
          · exact h3 q (by simp [hq])

/-! ## C24 -/

/-- Free of separator characters. -/
def NoSep (s : Str) : Prop := '@' ∉ s ∧ '+' ∉ s

/-- A path that can be written down: no separators, no empty revision. -/
def ModelPath.Plain (p : ModelPath) : Prop :=
  NoSep p.path ∧ ∀ r, p.revision = some r → NoSep r ∧ r ≠ []

/-- A reference that can be written down. -/
def Ref.Plain (r : Ref) : Prop :=
  r.model.Plain ∧ (∀ l, r.lora = some l → l.Plain) ∧ r.overrideArchitecture = none

theorem parsePath_print {p : ModelPath} (h : p.Plain) : parsePath p.print = .ok p := by
  obtain ⟨path, rev⟩ := p
  obtain ⟨⟨h1, h2⟩, h3⟩ := h
  simp only at h1 h2
  cases rev with
  | none =>
    simp [ModelPath.print, parsePath, List.count_eq_zero_of_not_mem h1]
  | some r =>
    obtain ⟨⟨h4, h5⟩, h6⟩ := h3 r rfl
    obtain ⟨x, xs, rfl⟩ := List.exists_cons_of_ne_nil h6
    have hcount : (path ++ '@' :: x :: xs).count '@' = 1 := by
      rw [List.count_append, List.count_eq_zero_of_not_mem h1, List.count_cons_self,
        List.count_eq_zero_of_not_mem h4]
    simp only [ModelPath.print, parsePath, hcount]
    rw [splitChar_append _ h1, splitChar_none h4]
    simp

theorem print_noPlus {p : ModelPath} (h : p.Plain) : '+' ∉ p.print := by
  obtain ⟨path, rev⟩ := p
  obtain ⟨⟨h1, h2⟩, h3⟩ := h
  simp only at h1 h2
  cases rev with
  | none => simpa [ModelPath.print] using h2
  | some r =>
    obtain ⟨⟨h4, h5⟩, h6⟩ := h3 r rfl
    obtain ⟨x, xs, rfl⟩ := List.exists_cons_of_ne_nil h6
    simp only [ModelPath.print, List.mem_append, not_or]
    refine ⟨h2, ?_⟩
    rw [List.mem_cons, not_or]
    exact ⟨by decide, h5⟩

/-- **C24** Parsing the printed form of a reference without separator characters in its parts gives it back. -/
theorem C24_parse_print (r : Ref) (h : r.Plain) : parse r.print = .ok r := by
  obtain ⟨m, l, o⟩ := r
  obtain ⟨h1, h2, h3⟩ := h
  simp only at h1 h2 h3
  subst h3
  cases l with
  | none => simp [Ref.print, parse, splitChar_none (print_noPlus h1), parsePath_print h1]
  | some l =>
    simp [Ref.print, parse, splitChar_append _ (print_noPlus h1), splitChar_none (print_noPlus (h2 l rfl)),
      parsePath_print h1, parsePath_print (h2 l rfl)]

/-- **C24** Two different references without separator characters in their parts (and without overridden architecture) never
print alike.  Missing from the full claim: references with an overridden architecture, an empty revision, or
separators inside a path, for which it is false (`C24_override_prints_alike`, ...). -/
theorem C24_never_alike_partial (r s : Ref) (hr : r.Plain) (hs : s.Plain) (h : r.print = s.print) : r = s := by
  have h1 := C24_parse_print r hr
  rw [h, C24_parse_print s hs] at h1
  simpa using h1.symm

theorem parsePath_cases (s : Str) : (parsePath s = .error .multipleAt ∧ 2 ≤ s.count '@') ∨
    ∃ p, parsePath s = .ok p ∧ s.count '@' ≤ 1 ∧
      ((p.path = s ∧ p.revision = none ∧ '@' ∉ s) ∨
        ∃ r, p.revision = some r ∧ s = p.path ++ '@' :: r ∧ '@' ∉ p.path ∧ '@' ∉ r) := by
  unfold parsePath
  by_cases h1 : s.count '@' > 1
  · left; rw [if_pos h1]; exact ⟨rfl, h1⟩
  · rw [if_neg h1]
    right
    by_cases h2 : s.count '@' = 1
    · rw [if_pos h2]
      obtain ⟨j1, j2, j3⟩ := splitChar_join '@' s
      rw [h2] at j2
      match hsp : splitChar '@' s, j2 with
      | [p, r], _ =>
        refine ⟨_, rfl, by omega, Or.inr ⟨r, rfl, ?_, j3 p (by simp [hsp]), j3 r (by simp [hsp])⟩⟩
        rw [hsp] at j1
        simp only [List.intercalate, List.intersperse_cons₂, List.intersperse_single, List.flatten_cons,
          List.flatten_nil, List.append_nil] at j1
        rw [← j1]; simp
    · rw [if_neg h2]
      refine ⟨_, rfl, by omega, Or.inl ⟨rfl, rfl, ?_⟩⟩
      rw [← List.count_eq_zero]; omega

/-- **C24** A string is rejected exactly if it has more than one `+`, or a part with more than one `@`. -/
theorem C24_rejected_iff (s : Str) :
    (∃ e, parse s = .error e) ↔
      2 ≤ s.count '+' ∨ ∃ a b, s = a ++ b ∧
        ((2 ≤ a.count '@' ∧ '+' ∉ a ∧ (b = [] ∨ ∃ b', b = '+' :: b')) ∨
         (2 ≤ b.count '@' ∧ '+' ∉ b ∧ (a = [] ∨ ∃ a', a = a' ++ ['+']))) := by
  obtain ⟨j1, j2, j3⟩ := splitChar_join '+' s
  constructor
  · rintro ⟨e, he⟩
    by_cases hc : 2 ≤ s.count '+'
    · exact Or.inl hc
    · right
      unfold parse at he
      match hsp : splitChar '+' s with
      | [] => exact absurd hsp (splitChar_ne_nil _ _)
      | [m] =>
        rw [hsp] at j1 j3 he
        have hm : '+' ∉ m := j3 m (by simp)
        simp [List.intercalate] at j1
        subst j1
        rcases parsePath_cases m with ⟨h1, h2⟩ | ⟨p, h1, _⟩
        · exact ⟨m, [], by simp, Or.inl ⟨h2, hm, Or.inl rfl⟩⟩
        · simp [h1] at he
      | [m, l] =>
        rw [hsp] at j1 j3 he
        have hm : '+' ∉ m := j3 m (by simp)
        have hl : '+' ∉ l := j3 l (by simp)
        simp [List.intercalate] at j1
        subst j1
        rcases parsePath_cases m with ⟨h1, h2⟩ | ⟨p, h1, _⟩
        · exact ⟨m, '+' :: l, rfl, Or.inl ⟨h2, hm, Or.inr ⟨l, rfl⟩⟩⟩
        · rcases parsePath_cases l with ⟨h3, h4⟩ | ⟨q, h3, _⟩
          · exact ⟨m ++ ['+'], l, by simp, Or.inr ⟨h4, hl, Or.inr ⟨m, rfl⟩⟩⟩
          · simp [h1, h3] at he
      | a :: b :: c :: t =>
        rw [hsp] at j2
        simp at j2
        omega
  · have hbad : ∀ x, 2 ≤ x.count '@' → parsePath x = .error .multipleAt := by
      intro x hx
      rcases parsePath_cases x with ⟨h1, _⟩ | ⟨_, _, h2, _⟩
      · exact h1
      · omega
    rintro (hc | ⟨a, b, rfl, ⟨h2, ha, hb⟩ | ⟨h2, hb, ha⟩⟩)
    · refine ⟨.multiplePlus, ?_⟩
      unfold parse
      match hsp : splitChar '+' s with
      | [] => exact absurd hsp (splitChar_ne_nil _ _)
      | [m] => rw [hsp] at j2; simp at j2; omega
      | [m, l] => rw [hsp] at j2; simp at j2; omega
      | a :: b :: c :: t => rfl
    · rcases hb with rfl | ⟨b', rfl⟩
      · refine ⟨.multipleAt, ?_⟩
        simp [parse, splitChar_none ha, hbad a h2]
      · unfold parse
        rw [splitChar_append _ ha]
        match splitChar '+' b' with
        | [] => exact ⟨_, by simp [hbad a h2]; rfl⟩
        | [l] => exact ⟨_, by simp [hbad a h2]; rfl⟩
        | _ :: _ :: _ => exact ⟨_, rfl⟩
    · rcases ha with rfl | ⟨a', rfl⟩
      · refine ⟨.multipleAt, ?_⟩
        simp [parse, splitChar_none hb, hbad b h2]
      · by_cases ha' : '+' ∈ a'
        · refine ⟨.multiplePlus, ?_⟩
          have hcount : 2 ≤ (a' ++ ['+'] ++ b).count '+' := by
            have := List.count_pos_iff.2 ha'
            simp only [List.count_append, List.count_singleton_self]; omega
          unfold parse
          match hsp : splitChar '+' (a' ++ ['+'] ++ b) with
          | [] => exact absurd hsp (splitChar_ne_nil _ _)
          | [m] => rw [hsp] at j2; simp at j2 hcount
          | [m, l] => rw [hsp] at j2; simp at j2 hcount; omega
          | a :: b :: c :: t => rfl
        · have : a' ++ ['+'] ++ b = a' ++ '+' :: b := by simp
          rw [this]
          unfold parse
          rw [splitChar_append _ ha', splitChar_none hb]
          simp only [hbad b h2]
          cases parsePath a' with
          | error e => exact ⟨_, rfl⟩
          | ok m => exact ⟨_, rfl⟩

/-- **C24** Printing what was parsed gives back the string, unless a revision is empty ("path@"). -/
theorem C24_print_parse (s : Str) (r : Ref) (h : parse s = .ok r)
    (hrev : r.model.revision ≠ some [] ∧ ∀ l, r.lora = some l → l.revision ≠ some []) : r.print = s := by
  have hp : ∀ (x : Str) (p : ModelPath), parsePath x = .ok p → p.revision ≠ some [] → p.print = x := by
    intro x p hx hr
    rcases parsePath_cases x with ⟨h1, _⟩ | ⟨q, h1, _, ⟨h2, h3, _⟩ | ⟨r, h2, h3, _⟩⟩
    · rw [h1] at hx; cases hx
    · rw [h1] at hx; cases hx
      simp [ModelPath.print, h2, h3]
    · rw [h1] at hx; cases hx
      cases r with
      | nil => exact absurd h2 hr
      | cons y ys => simp [ModelPath.print, h2, h3]
  obtain ⟨j1, _, _⟩ := splitChar_join '+' s
  unfold parse at h
  match hsp : splitChar '+' s with
  | [] => exact absurd hsp (splitChar_ne_nil _ _)
  | [m] =>
    rw [hsp] at j1 h
    simp [List.intercalate] at j1
    subst j1
    simp only at h
    cases hm : parsePath m with
    | error e => rw [hm] at h; cases h
    | ok p =>
      rw [hm] at h; cases h
      exact hp m p hm hrev.1
  | [m, l] =>
    rw [hsp] at j1 h
    simp [List.intercalate] at j1
    subst j1
    simp only at h
    cases hm : parsePath m with
    | error e => rw [hm] at h; cases h
    | ok p =>
      cases hl : parsePath l with
      | error e => rw [hm, hl] at h; cases h
      | ok q =>
        rw [hm, hl] at h; cases h
        simp [Ref.print, hp m p hm hrev.1, hp l q hl (hrev.2 q rfl)]
  | a :: b :: c :: t => rw [hsp] at h; cases h

/-- **C24** Serialization (as in a saved configuration) round-trips. -/
theorem C24_serialize (r : Ref) (h : r.Plain ∨ r.overrideArchitecture.isSome = true) :
    validate r.serialize = .ok r := by
  unfold Ref.serialize
  split
  · rfl
  · rename_i ho
    rcases h with h | h
    · split
      · rfl
      · exact C24_parse_print r h
    · exact absurd h ho

/-- The architecture override is not printed. -/
theorem C24_override_prints_alike : ∃ r s : Ref, r ≠ s ∧ r.print = s.print :=
  ⟨⟨⟨"a".toList, none⟩, none, none⟩, ⟨⟨"a".toList, none⟩, none, some "X".toList⟩, by decide, by decide⟩

/-- An empty revision, as parsed from "a@", is not printed. -/
theorem C24_empty_revision_prints_alike : ∃ r s : Ref, r ≠ s ∧ r.print = s.print ∧
    parse "a@".toList = .ok r ∧ parse "a".toList = .ok s :=
  ⟨⟨⟨"a".toList, some []⟩, none, none⟩, ⟨⟨"a".toList, none⟩, none, none⟩, by decide, by decide, by decide, by decide⟩

/-- A "+" in a path (possible when given as fields) is printed like an adapter, and saved as one. -/
theorem C24_plus_in_path_becomes_adapter : ∃ r s : Ref, r ≠ s ∧ r.lora = none ∧ s.lora.isSome = true ∧
    validate r.serialize = .ok s :=
  ⟨⟨⟨"a+b".toList, none⟩, none, none⟩, ⟨⟨"a".toList, none⟩, some ⟨"b".toList, none⟩, none⟩,
    by decide, rfl, rfl, by decide⟩

example : Ref.Plain ⟨⟨"org/model".toList, some "main".toList⟩, some ⟨"lora".toList, none⟩, none⟩ := by
  refine ⟨⟨by unfold NoSep; decide, ?_⟩, ?_, rfl⟩
  · rintro r hr; cases hr; unfold NoSep; decide
  · rintro l hl; cases hl
    exact ⟨by unfold NoSep; decide, by intro r hr; cases hr⟩

/-! ## C25 -/

section
variable {V : Type}

theorem attrGet_set (attrs : List (Str × Cfg V)) (k k' : Str) (v : Cfg V) :
    attrGet (attrSet attrs k v) k' = if k' = k then some v else attrGet attrs k' := by
  unfold attrSet
  split
  · rename_i h0
    have h : k ∈ attrs.map Prod.fst := by simpa using h0
    clear h0
    induction attrs with
    | nil => simp at h
    | cons e es ih =>
      unfold attrGet
      simp only [List.map_cons, List.find?_cons]
      by_cases he : e.1 = k
      · simp only [he, if_true]
        by_cases hk : k' = k
        · simp [hk]
        · have hk2 : ¬ k = k' := fun x => hk x.symm
          simp only [hk2, hk, decide_false, if_false]
          by_cases hin : k ∈ es.map Prod.fst
          · have := ih hin
            unfold attrGet at this
            rw [this, if_neg hk]
          · have hes : es.map (fun e => if e.1 = k then (k, v) else e) = es := by
              conv => rhs; rw [← List.map_id es]
              apply List.map_congr_left
              intro e he
              rw [if_neg (fun h => hin (List.mem_map.2 ⟨e, he, h⟩))]; rfl
            rw [hes]
      · simp only [he, if_false]
        have hin : k ∈ es.map Prod.fst := by
          rcases List.mem_cons.1 h with h | h
          · exact absurd h.symm he
          · exact h
        have := ih hin
        unfold attrGet at this
        by_cases hek : e.1 = k'
        · have : ¬ k' = k := fun h => he (hek.trans h)
          simp [hek, this]
        · simp only [hek, decide_false]
          exact this
  · rename_i h
    have h : k ∉ attrs.map Prod.fst := by simpa using h
    unfold attrGet
    rw [List.find?_append]
    by_cases hk : k' = k
    · subst hk
      have : attrs.find? (fun e => decide (e.1 = k')) = none := by
        rw [List.find?_eq_none]
        intro e he
        simp only [decide_eq_true_eq]
        exact fun hh => h (List.mem_map.2 ⟨e, he, hh⟩)
      simp [this]
    · have hk2 : ¬ k = k' := fun x => hk x.symm
      simp [hk, hk2]

theorem setParts_get (v : Cfg V) : ∀ (c : Cfg V) (ps : List Str) (c' : Cfg V), ps ≠ [] →
    setParts v c ps = .ok c' → getParts c' ps = .ok v ∧
      ∀ qs, ¬ ps <+: qs → ¬ qs <+: ps → getParts c' qs = getParts c qs := by
  intro c ps
  induction ps generalizing c with
  | nil => intro c' h; exact absurd rfl h
  | cons p ps ih =>
    intro c' _ h
    cases c with
    | leaf x => cases ps <;> simp [setParts] at h
    | obj attrs =>
      cases ps with
      | nil =>
        simp only [setParts, Except.ok.injEq] at h
        subst h
        refine ⟨by simp [getParts, attrGet_set], ?_⟩
        intro qs h1 h2
        cases qs with
        | nil => exact absurd (List.nil_prefix) h2
        | cons q qs =>
          have hq : q ≠ p := by
            rintro rfl
            exact h1 ⟨qs, rfl⟩
          simp [getParts, attrGet_set, hq]
      | cons p2 ps =>
        simp only [setParts] at h
        cases ha : attrGet attrs p with
        | none => rw [ha] at h; cases h
        | some sub =>
          rw [ha] at h
          simp only at h
          cases hs : setParts v sub (p2 :: ps) with
          | error e => rw [hs] at h; cases h
          | ok sub' =>
            rw [hs] at h
            simp only [Except.ok.injEq] at h
            subst h
            obtain ⟨i1, i2⟩ := ih sub sub' (by simp) hs
            refine ⟨by simp only [getParts, attrGet_set, if_true]; exact i1, ?_⟩
            intro qs h1 h2
            cases qs with
            | nil => exact absurd (List.nil_prefix) h2
            | cons q qs =>
              simp only [getParts, attrGet_set]
              by_cases hq : q = p
              · subst hq
                simp only [if_true, ha]
                apply i2
                · rintro ⟨t, ht⟩
                  exact h1 ⟨t, by rw [← ht]; rfl⟩
                · rintro ⟨t, ht⟩
                  exact h2 ⟨t, by rw [← ht]; rfl⟩
              · simp [hq]

/-- **C25** Reading a dotted key after setting it returns the value set. -/
theorem C25_get_set (c c' v : Cfg V) (key : Str) (h : setConfigValue c key v = .ok c') :
    getConfigValue c' key = .ok v :=
  (setParts_get v c _ c' (splitChar_ne_nil _ _) h).1

/-- **C25** Other keys - neither above nor below the one set - read as before, including absent ones. -/
theorem C25_others_unchanged (c c' v : Cfg V) (key key' : Str) (h : setConfigValue c key v = .ok c')
    (h1 : ¬ splitChar '.' key <+: splitChar '.' key') (h2 : ¬ splitChar '.' key' <+: splitChar '.' key) :
    getConfigValue c' key' = getConfigValue c key' :=
  (setParts_get v c _ c' (splitChar_ne_nil _ _) h).2 _ h1 h2

/-- **C25** Setting succeeds exactly if the parts before the last lead to an object. -/
theorem C25_set_succeeds_iff (c v : Cfg V) (key : Str) :
    (∃ c', setConfigValue c key v = .ok c') ↔
      ∃ attrs, getParts c (splitChar '.' key).dropLast = .ok (.obj attrs) := by
  unfold setConfigValue
  have : ∀ (ps : List Str), ps ≠ [] → ∀ c : Cfg V, (∃ c', setParts v c ps = .ok c') ↔
      ∃ attrs, getParts c ps.dropLast = .ok (.obj attrs) := by
    intro ps
    induction ps with
    | nil => intro h; exact absurd rfl h
    | cons p ps ih =>
      intro _ c
      cases ps with
      | nil =>
        cases c with
        | leaf x => simp [setParts, getParts]
        | obj attrs => simp [setParts, getParts]
      | cons q ps =>
        cases c with
        | leaf x => simp [setParts, getParts]
        | obj attrs =>
          simp only [setParts, List.dropLast_cons_cons, getParts]
          cases ha : attrGet attrs p with
          | none => simp
          | some sub =>
            simp only
            rw [← ih (by simp) sub]
            cases hs : setParts v sub (q :: ps) with
            | error e => simp
            | ok sub' => simp
  exact this _ (splitChar_ne_nil _ _) c

end

/-- A nested configuration, and the hypotheses of C25 for it. -/
def sampleCfg : Cfg Nat := .obj [("text_config".toList, .obj [("layers".toList, .leaf 32)]), ("vocab".toList, .leaf 7)]

example : ∃ c', setConfigValue sampleCfg "text_config.layers".toList (.leaf 5) = .ok c' := by
  rw [C25_set_succeeds_iff]
  exact ⟨_, rfl⟩

example : ¬ splitChar '.' "text_config.layers".toList <+: splitChar '.' "vocab".toList ∧
    ¬ splitChar '.' "vocab".toList <+: splitChar '.' "text_config.layers".toList := by decide

/-! ## C26 -/

/-- The value of a string of decimal digits. -/
def decimal (s : Str) : Nat := s.foldl (fun n c => n * 10 + (c.toNat - 48)) 0

theorem intDigits_digits : ∀ (s : Str) (acc : Nat), (∀ c ∈ s, c.isDigit = true) →
    intDigits acc s = some (s.foldl (fun n c => n * 10 + (c.toNat - 48)) acc) := by
  intro s
  induction s with
  | nil => intro acc _; rfl
  | cons c cs ih =>
    intro acc h
    have hc := h c (by simp)
    have hu : c ≠ '_' := by rintro rfl; exact absurd hc (by decide)
    have := ih (acc * 10 + digitVal c) (fun d hd => h d (by simp [hd]))
    rw [intDigits.eq_def]
    split
    · rename_i heq; cases heq
    · rename_i heq; cases heq; exact absurd rfl hu
    · rename_i heq; cases heq
      rw [if_pos hc, this]; rfl

theorem strip_digits {s : Str} (h : ∀ c ∈ s, c.isDigit = true) : strip s = s := by
  have hd : ∀ (l : Str), (∀ c ∈ l, c.isDigit = true) → l.dropWhile isSpace = l := by
    intro l hl
    cases l with
    | nil => rfl
    | cons c cs =>
      have hc := hl c (by simp)
      have : isSpace c = false := by
        unfold isSpace
        simp only [Bool.or_eq_false_iff, decide_eq_false_iff_not]
        refine ⟨⟨⟨⟨⟨?_, ?_⟩, ?_⟩, ?_⟩, ?_⟩, ?_⟩ <;> (rintro rfl; exact absurd hc (by decide))
      simp [this]
  unfold strip
  rw [hd s h, hd s.reverse (fun c hc => h c (by simpa using hc)), List.reverse_reverse]

theorem pyInt_digits {s : Str} (hne : s ≠ []) (h : ∀ c ∈ s, c.isDigit = true) :
    pyInt s = some (decimal s : Int) := by
  unfold pyInt
  rw [strip_digits h]
  obtain ⟨c, cs, rfl⟩ := List.exists_cons_of_ne_nil hne
  have hc := h c (by simp)
  split
  · rename_i heq; cases heq; exact absurd hc (by decide)
  · rename_i heq; cases heq; exact absurd hc (by decide)
  · simp only [intUnsigned, hc, if_true]
    rw [intDigits_digits cs _ (fun d hd => h d (by simp [hd]))]
    simp [decimal, digitVal]

/-- The factor a suffix stands for. -/
def factor : Char → Option Int
  | 'k' => some 1000
  | 'K' => some 1000
  | 'm' => some 1000000
  | 'M' => some 1000000
  | 'b' => some 1000000000
  | 'B' => some 1000000000
  | _ => none

/-- **C26** Digits alone denote their value. -/
theorem C26_plain (s : Str) (hne : s ≠ []) (h : ∀ c ∈ s, c.isDigit = true) :
    parseKmb s = some (decimal s : Int) := by
  unfold parseKmb
  rw [if_pos ⟨hne, by simpa using h⟩]
  exact pyInt_digits hne h

/-- **C26** Digits and a suffix denote the value times the factor. -/
theorem C26_suffix (s : Str) (hne : s ≠ []) (h : ∀ c ∈ s, c.isDigit = true) (c : Char) (f : Int)
    (hf : factor c = some f) : parseKmb (s ++ [c]) = some ((decimal s : Int) * f) := by
  have hc : c = 'k' ∨ c = 'K' ∨ c = 'm' ∨ c = 'M' ∨ c = 'b' ∨ c = 'B' := by
    unfold factor at hf
    split at hf <;> simp_all
  have hnd : ¬ (s ++ [c] ≠ [] ∧ (s ++ [c]).all Char.isDigit = true) := by
    rintro ⟨_, hall⟩
    rw [List.all_eq_true] at hall
    have := hall c (by simp)
    rcases hc with rfl | rfl | rfl | rfl | rfl | rfl <;> exact absurd this (by decide)
  unfold parseKmb
  rw [if_neg hnd]
  simp only [List.getLast?_append, List.getLast?_singleton, Option.some_or, List.dropLast_concat,
    pyInt_digits hne h, Option.map_some]
  rcases hc with rfl | rfl | rfl | rfl | rfl | rfl <;> simp [factor] at hf <;> subst hf <;>
    simp only [show Char.toLower 'k' = 'k' from rfl, show Char.toLower 'K' = 'k' from rfl,
      show Char.toLower 'm' = 'm' from rfl, show Char.toLower 'M' = 'm' from rfl,
      show Char.toLower 'b' = 'b' from rfl, show Char.toLower 'B' = 'b' from rfl] <;>
    simp [Int.mul_assoc]

theorem toLower_cases (c : Char) : c.toLower = c ∨ c.toLower.val = c.val + 32 := by
  unfold Char.toLower
  split
  · right; rfl
  · left; rfl

theorem toLower_eq_k {c : Char} (h : c.toLower = 'k') : c = 'k' ∨ c = 'K' := by
  rcases toLower_cases c with h1 | h1
  · left; rw [← h1]; exact h
  · right
    rw [h] at h1
    apply Char.ext
    have : c.val + 32 = 'K'.val + 32 := h1.symm
    exact (UInt32.add_left_inj 32).1 this

theorem toLower_eq_m {c : Char} (h : c.toLower = 'm') : c = 'm' ∨ c = 'M' := by
  rcases toLower_cases c with h1 | h1
  · left; rw [← h1]; exact h
  · right
    rw [h] at h1
    apply Char.ext
    have : c.val + 32 = 'M'.val + 32 := h1.symm
    exact (UInt32.add_left_inj 32).1 this

theorem toLower_eq_b {c : Char} (h : c.toLower = 'b') : c = 'b' ∨ c = 'B' := by
  rcases toLower_cases c with h1 | h1
  · left; rw [← h1]; exact h
  · right
    rw [h] at h1
    apply Char.ext
    have : c.val + 32 = 'B'.val + 32 := h1.symm
    exact (UInt32.add_left_inj 32).1 this

/-- Whatever is accepted is a string of digits, or what `int` accepts followed by one of the six suffixes. -/
theorem kmb_accepted (s : Str) (v : Int) (h : parseKmb s = some v) :
    (s ≠ [] ∧ (∀ c ∈ s, c.isDigit = true) ∧ v = decimal s) ∨
    ∃ t c f n, s = t ++ [c] ∧ factor c = some f ∧ pyInt t = some n ∧ v = n * f := by
  unfold parseKmb at h
  split at h
  · rename_i hd
    obtain ⟨h1, h2⟩ := hd
    have h2 : ∀ c ∈ s, c.isDigit = true := by simpa using h2
    rw [pyInt_digits h1 h2] at h
    left
    exact ⟨h1, h2, by simpa using h.symm⟩
  · right
    rcases List.eq_nil_or_concat s with rfl | ⟨t, c, rfl⟩
    · simp at h
    · simp only [List.concat_eq_append, List.getLast?_append, List.getLast?_singleton, Option.some_or,
        List.dropLast_concat] at h
      split at h
      · rename_i hk
        cases hn : pyInt t with
        | none => rw [hn] at h; cases h
        | some n =>
          rw [hn] at h
          simp only [Option.map_some, Option.some.injEq] at h
          rcases toLower_eq_k hk with rfl | rfl
          · exact ⟨t, 'k', 1000, n, by simp, rfl, hn, h.symm⟩
          · exact ⟨t, 'K', 1000, n, by simp, rfl, hn, h.symm⟩
      · split at h
        · rename_i hk
          cases hn : pyInt t with
          | none => rw [hn] at h; cases h
          | some n =>
            rw [hn] at h
            simp only [Option.map_some, Option.some.injEq] at h
            rcases toLower_eq_m hk with rfl | rfl
            · exact ⟨t, 'm', 1000000, n, by simp, rfl, hn, by omega⟩
            · exact ⟨t, 'M', 1000000, n, by simp, rfl, hn, by omega⟩
        · split at h
          · rename_i hk
            cases hn : pyInt t with
            | none => rw [hn] at h; cases h
            | some n =>
              rw [hn] at h
              simp only [Option.map_some, Option.some.injEq] at h
              rcases toLower_eq_b hk with rfl | rfl
              · exact ⟨t, 'b', 1000000000, n, by simp, rfl, hn, by omega⟩
              · exact ⟨t, 'B', 1000000000, n, by simp, rfl, hn, by omega⟩
          · cases h

/-- Digits with at most one underscore between two of them; the digits alone. -/
inductive Digits : Str → Str → Prop
  | one {c} : c.isDigit = true → Digits [c] [c]
  | next {c s ds} : c.isDigit = true → Digits s ds → Digits (c :: s) (c :: ds)
  | gap {c s ds} : c.isDigit = true → Digits s ds → Digits (c :: '_' :: s) (c :: ds)

/-- A text of blanks. -/
def Blank (s : Str) : Prop := ∀ c ∈ s, c ∈ [' ', '\t', '\n', '\r', '\x0b', '\x0c']

/-- The integers of python: digits, perhaps with underscores, a sign and blanks around. -/
inductive Literal : Str → Int → Prop
  | plain {l s r ds} : Blank l → Blank r → Digits s ds → Literal (l ++ s ++ r) (decimal ds)
  | plus {l s r ds} : Blank l → Blank r → Digits s ds → Literal (l ++ '+' :: s ++ r) (decimal ds)
  | minus {l s r ds} : Blank l → Blank r → Digits s ds → Literal (l ++ '-' :: s ++ r) (-(decimal ds))

theorem isSpace_iff {c : Char} : isSpace c = true ↔ c ∈ [' ', '\t', '\n', '\r', '\x0b', '\x0c'] := by
  unfold isSpace
  simp only [Bool.or_eq_true, decide_eq_true_eq, List.mem_cons, List.not_mem_nil, or_false, or_assoc]

/-- What may follow a digit. -/
inductive Rest : Str → Str → Prop
  | nil : Rest [] []
  | next {c s ds} : c.isDigit = true → Rest s ds → Rest (c :: s) (c :: ds)
  | gap {c s ds} : c.isDigit = true → Rest s ds → Rest ('_' :: c :: s) (c :: ds)

theorem digits_iff {s ds : Str} : Digits s ds ↔ ∃ c s' ds', s = c :: s' ∧ ds = c :: ds' ∧ c.isDigit = true ∧ Rest s' ds' := by
  constructor
  · intro h
    induction h with
    | one hc => exact ⟨_, _, _, rfl, rfl, hc, .nil⟩
    | next hc _ ih =>
      obtain ⟨c', s', ds', rfl, rfl, hc', hr⟩ := ih
      exact ⟨_, _, _, rfl, rfl, hc, .next hc' hr⟩
    | gap hc _ ih =>
      obtain ⟨c', s', ds', rfl, rfl, hc', hr⟩ := ih
      exact ⟨_, _, _, rfl, rfl, hc, .gap hc' hr⟩
  · rintro ⟨c, s', ds', rfl, rfl, hc, hr⟩
    induction hr generalizing c with
    | nil => exact .one hc
    | next hc' _ ih => exact .next hc (ih _ hc')
    | gap hc' _ ih => exact .gap hc (ih _ hc')

theorem intDigits_iff : ∀ (s : Str) (acc n : Nat), intDigits acc s = some n ↔ ∃ ds, Rest s ds ∧ n = ds.foldl (fun n c => n * 10 + (c.toNat - 48)) acc := by
  intro s acc
  induction acc, s using intDigits.induct with
  | case1 acc =>
    intro n
    constructor
    · intro h; cases h; exact ⟨[], .nil, rfl⟩
    · rintro ⟨ds, h, rfl⟩; cases h; rfl
  | case2 acc c cs hc ih =>
    intro n
    rw [intDigits, if_pos hc, ih]
    constructor
    · rintro ⟨ds, h, rfl⟩; exact ⟨c :: ds, .gap hc h, rfl⟩
    · rintro ⟨ds, h, rfl⟩
      cases h with
      | next h' => exact absurd h' (by decide)
      | gap _ h => exact ⟨_, h, rfl⟩
  | case3 acc c cs hc =>
    intro n
    rw [intDigits, if_neg hc]
    constructor
    · intro h; cases h
    · rintro ⟨ds, h, rfl⟩
      cases h with
      | next h' => exact absurd h' (by decide)
      | gap h' _ => exact absurd h' hc
  | case4 acc c cs hno hc ih =>
    intro n
    have hu : c ≠ '_' := by rintro rfl; exact absurd hc (by decide)
    have e : intDigits acc (c :: cs) = intDigits (acc * 10 + digitVal c) cs := by
      rw [intDigits.eq_def]
      split
      · rename_i heq; cases heq
      · rename_i heq; cases heq; exact absurd rfl hu
      · rename_i heq; cases heq; rw [if_pos hc]
    rw [e, ih]
    constructor
    · rintro ⟨ds, h, rfl⟩; exact ⟨c :: ds, .next hc h, rfl⟩
    · rintro ⟨ds, h, rfl⟩
      cases h with
      | next _ h => exact ⟨_, h, rfl⟩
      | gap => exact absurd rfl hu
  | case5 acc c cs hno hc =>
    intro n
    constructor
    · intro h
      rw [intDigits.eq_def] at h
      split at h
      · rename_i heq; cases heq
      · rename_i heq; cases heq; exact absurd rfl (hno _ _ · rfl)
      · rename_i heq; cases heq; rw [if_neg hc] at h; cases h
    · rintro ⟨ds, h, rfl⟩
      cases h with
      | next h' => exact absurd h' hc
      | gap => exact absurd rfl (hno _ _ · rfl)

theorem intUnsigned_iff (s : Str) (n : Nat) : intUnsigned s = some n ↔ ∃ ds, Digits s ds ∧ n = decimal ds := by
  cases s with
  | nil =>
    constructor
    · intro h; cases h
    · rintro ⟨ds, h, -⟩; cases h
  | cons c cs =>
    unfold intUnsigned
    simp only
    constructor
    · intro h
      split_ifs at h with hc
      obtain ⟨ds, h1, rfl⟩ := (intDigits_iff _ _ _).1 h
      exact ⟨c :: ds, digits_iff.2 ⟨c, cs, ds, rfl, rfl, hc, h1⟩, by simp [decimal, digitVal]⟩
    · rintro ⟨ds, h, rfl⟩
      obtain ⟨c', s', ds', h1, rfl, hc, hr⟩ := digits_iff.1 h
      cases h1
      rw [if_pos hc]
      exact (intDigits_iff _ _ _).2 ⟨ds', hr, by simp [decimal, digitVal]⟩

theorem digits_ends {s ds : Str} (h : Digits s ds) : (∃ c, s.head? = some c ∧ c.isDigit = true) ∧ ∃ c, s.getLast? = some c ∧ c.isDigit = true := by
  induction h with
  | one hc => exact ⟨⟨_, rfl, hc⟩, _, rfl, hc⟩
  | next hc hd ih =>
    obtain ⟨_, c, h1, h2⟩ := ih
    exact ⟨⟨_, rfl, hc⟩, c, by rw [List.getLast?_cons, h1]; rfl, h2⟩
  | gap hc hd ih =>
    obtain ⟨_, c, h1, h2⟩ := ih
    exact ⟨⟨_, rfl, hc⟩, c, by rw [List.getLast?_cons, List.getLast?_cons, h1]; rfl, h2⟩

theorem digit_not_blank {c : Char} (h : c.isDigit = true) : isSpace c = false := by
  unfold isSpace
  simp only [Bool.or_eq_false_iff, decide_eq_false_iff_not]
  refine ⟨⟨⟨⟨⟨?_, ?_⟩, ?_⟩, ?_⟩, ?_⟩, ?_⟩ <;> (rintro rfl; exact absurd h (by decide))

theorem dropWhile_blank : ∀ (l u : Str), Blank l → (∀ c, u.head? = some c → isSpace c = false) → (l ++ u).dropWhile isSpace = u
  | [], [], _, _ => rfl
  | [], c :: u, _, h => by rw [List.nil_append, List.dropWhile_cons, if_neg (by rw [h c rfl]; simp)]
  | c :: l, u, hl, h => by
    rw [List.cons_append, List.dropWhile_cons, if_pos (isSpace_iff.2 (hl c (by simp)))]
    exact dropWhile_blank l u (fun d hd => hl d (by simp [hd])) h

theorem strip_eq {l u r : Str} (hl : Blank l) (hr : Blank r) (hu : u ≠ []) (h1 : ∀ c, u.head? = some c → isSpace c = false) (h2 : ∀ c, u.getLast? = some c → isSpace c = false) :
    strip (l ++ u ++ r) = u := by
  unfold strip
  rw [List.append_assoc, dropWhile_blank l (u ++ r) hl, List.reverse_append, dropWhile_blank r.reverse u.reverse, List.reverse_reverse]
  · intro c hc; exact hr c (by simpa using hc)
  · intro c hc; rw [List.head?_reverse] at hc; exact h2 c hc
  · intro c hc
    obtain ⟨a, u', rfl⟩ := List.exists_cons_of_ne_nil hu
    exact h1 c (by simpa using hc)

theorem takeWhile_blank (s : Str) : Blank (s.takeWhile isSpace) := fun c hc => isSpace_iff.1 (List.all_eq_true.1 List.all_takeWhile c hc)

theorem strip_split (t : Str) : ∃ l r, Blank l ∧ Blank r ∧ t = l ++ strip t ++ r := by
  refine ⟨t.takeWhile isSpace, ((t.dropWhile isSpace).reverse.takeWhile isSpace).reverse, takeWhile_blank _, ?_, ?_⟩
  · intro c hc
    exact takeWhile_blank _ c (List.mem_reverse.1 hc)
  · unfold strip
    rw [List.append_assoc, ← List.reverse_append, List.takeWhile_append_dropWhile, List.reverse_reverse, List.takeWhile_append_dropWhile]

theorem pyInt_iff (t : Str) (n : Int) : pyInt t = some n ↔ Literal t n := by
  constructor
  · intro h
    obtain ⟨l, r, hl, hr, ht⟩ := strip_split t
    unfold pyInt at h
    split at h
    · rename_i cs heq
      rw [heq] at ht
      cases hk : intUnsigned cs with
      | none => rw [hk] at h; cases h
      | some k =>
      rw [hk] at h
      cases h
      obtain ⟨ds, hd, rfl⟩ := (intUnsigned_iff _ _).1 hk
      rw [ht]
      exact .minus hl hr hd
    · rename_i cs heq
      rw [heq] at ht
      cases hk : intUnsigned cs with
      | none => rw [hk] at h; cases h
      | some k =>
      rw [hk] at h
      cases h
      obtain ⟨ds, hd, rfl⟩ := (intUnsigned_iff _ _).1 hk
      rw [ht]
      exact .plus hl hr hd
    · cases hk : intUnsigned (strip t) with
      | none => rw [hk] at h; cases h
      | some k =>
      rw [hk] at h
      cases h
      obtain ⟨ds, hd, rfl⟩ := (intUnsigned_iff _ _).1 hk
      rw [ht]
      exact .plain hl hr hd
  · intro h
    have last : ∀ {s ds : Str} {x : Char}, Digits s ds → ∀ c, (x :: s).getLast? = some c → isSpace c = false := by
      intro s ds x hd c hc
      obtain ⟨_, c', h1, h2⟩ := digits_ends hd
      rw [List.getLast?_cons, h1] at hc
      cases hc
      exact digit_not_blank h2
    cases h with
    | plain hl hr hd =>
      obtain ⟨⟨c, h1, h2⟩, c', h3, h4⟩ := digits_ends hd
      have hne : ∀ {s : Str}, s.head? = some c → s ≠ [] := by rintro s h rfl; cases h
      have e := strip_eq hl hr (hne h1) (fun x hx => by rw [h1] at hx; cases hx; exact digit_not_blank h2) (fun x hx => by rw [h3] at hx; cases hx; exact digit_not_blank h4)
      have hu := (intUnsigned_iff _ _).2 ⟨_, hd, rfl⟩
      unfold pyInt
      rw [e]
      split
      · cases h1; exact absurd h2 (by decide)
      · cases h1; exact absurd h2 (by decide)
      · rw [hu]; rfl
    | plus hl hr hd =>
      have e := strip_eq hl hr (by simp) (fun c hc => by cases hc; decide) (last (x := '+') hd)
      have hu := (intUnsigned_iff _ _).2 ⟨_, hd, rfl⟩
      unfold pyInt
      rw [e]
      simp only
      rw [hu]; rfl
    | minus hl hr hd =>
      have e := strip_eq hl hr (by simp) (fun c hc => by cases hc; decide) (last (x := '-') hd)
      have hu := (intUnsigned_iff _ _).2 ⟨_, hd, rfl⟩
      unfold pyInt
      rw [e]
      simp only
      rw [hu]; rfl

/-- **C26** Exactly what is accepted, with its value: digits; or an integer as python writes it and one of the six suffixes.  (Partial: the property asks that everything but digits with an
optional suffix is rejected, but with a suffix python's `int` also admits signs, surrounding blanks and underscores, see `C26_signed_accepted`.) -/
theorem C26_accepted_partial (s : Str) (v : Int) : parseKmb s = some v ↔
    (s ≠ [] ∧ (∀ c ∈ s, c.isDigit = true) ∧ v = decimal s) ∨ ∃ t c f n, s = t ++ [c] ∧ factor c = some f ∧ Literal t n ∧ v = n * f := by
  constructor
  · intro h
    rcases kmb_accepted s v h with h | ⟨t, c, f, n, h1, h2, h3, h4⟩
    · exact Or.inl h
    · exact Or.inr ⟨t, c, f, n, h1, h2, (pyInt_iff t n).1 h3, h4⟩
  · rintro (⟨h1, h2, rfl⟩ | ⟨t, c, f, n, rfl, hf, hn, rfl⟩)
    · exact C26_plain s h1 h2
    · have hc : c = 'k' ∨ c = 'K' ∨ c = 'm' ∨ c = 'M' ∨ c = 'b' ∨ c = 'B' := by
        unfold factor at hf
        split at hf <;> simp_all
      have hnd : ¬ (t ++ [c] ≠ [] ∧ (t ++ [c]).all Char.isDigit = true) := by
        rintro ⟨_, hall⟩
        rw [List.all_eq_true] at hall
        have := hall c (by simp)
        rcases hc with rfl | rfl | rfl | rfl | rfl | rfl <;> exact absurd this (by decide)
      unfold parseKmb
      rw [if_neg hnd]
      simp only [List.getLast?_append, List.getLast?_singleton, Option.some_or, List.dropLast_concat, (pyInt_iff t n).2 hn, Option.map_some]
      rcases hc with rfl | rfl | rfl | rfl | rfl | rfl <;> simp [factor] at hf <;> subst hf <;>
        simp only [show Char.toLower 'k' = 'k' from rfl, show Char.toLower 'K' = 'k' from rfl,
          show Char.toLower 'm' = 'm' from rfl, show Char.toLower 'M' = 'm' from rfl,
          show Char.toLower 'b' = 'b' from rfl, show Char.toLower 'B' = 'b' from rfl] <;>
        simp [Int.mul_assoc]

example : Literal ([' '] ++ '-' :: ['1', '_', '0'] ++ [' ']) (-10) := .minus (l := [' ']) (r := [' ']) (ds := ['1', '0']) (by simp [Blank]) (by simp [Blank]) (.gap (by decide) (.one (by decide)))

/-- **C26** is not met: "-5k" and "1_0k" are accepted (while "-5" and "1_0" are not). -/
theorem C26_signed_accepted : parseKmb "-5k".toList = some (-5000) ∧ parseKmb "1_0k".toList = some 10000 ∧
    parseKmb "-5".toList = none ∧ parseKmb "1_0".toList = none := by decide

example : parseKmb "5B".toList = some 5000000000 ∧ parseKmb "x".toList = none ∧ parseKmb [] = none := by decide

end Verif.ModelRef
