import Verif.Model.MultiMain
import Verif.Props.Recipe
import Verif.Props.MainRaw
import Verif.Props.MainSurgeon

/-! # C144: `mergekit-multi` from the command line to the directories -/

set_option linter.unusedSectionVars false

namespace Verif.Document

open Verif.ModelRef (Str Ref NoSep)
open Verif.MultiMerge (pathJoin Name)

variable {K : Type}

/-! ## What is claimed about configurations -/

/-- Slices with other references. -/
def OutSlice.withRefs (f : Ref → Ref) (s : OutSlice K) : OutSlice K :=
  { s with sources := s.sources.map (fun x => { x with model := f x.model }), baseModel := s.baseModel.map f }

/-- A model with another reference. -/
def InModel.withRefs (f : Ref → Ref) (m : InModel K) : InModel K := { m with model := f m.model }

/-- A module with other references. -/
def OutModule.withRefs (f : Ref → Ref) (m : OutModule K) : OutModule K :=
  { m with slices := m.slices.map (·.map (OutSlice.withRefs f)), models := m.models.map (·.map (InModel.withRefs f)) }

/-- The source of a vocabulary with another reference. -/
def VocabSource.withRefs (f : Ref → Ref) : VocabSource → VocabSource
  | .union => .union
  | .base => .base
  | .ref r => .ref (f r)

/-- The source of a token with another reference. -/
def TokenSource.withRefs (f : Ref → Ref) : TokenSource → TokenSource
  | .modelToken m i t => .modelToken (f m) i t
  | .zero => .zero
  | .ref r => .ref (f r)

/-- A token with another reference. -/
def TokenConf.withRefs (f : Ref → Ref) (t : TokenConf) : TokenConf := { t with source := t.source.map (TokenSource.withRefs f) }

/-- A tokenizer with other references. -/
def TokenizerConf.withRefs (f : Ref → Ref) (t : TokenizerConf) : TokenizerConf :=
  { t with source := t.source.withRefs f, tokens := t.tokens.map (·.map (fun e => (e.1, e.2.withRefs f))) }

/-- The same configuration with other references. -/
def Conf.withRefs (f : Ref → Ref) (c : Conf K) : Conf K :=
  { c with
    modules := c.modules.map (·.map (fun e => (e.1, e.2.withRefs f)))
    slices := c.slices.map (·.map (OutSlice.withRefs f))
    models := c.models.map (·.map (InModel.withRefs f))
    baseModel := c.baseModel.map f
    tokenizerSource := c.tokenizerSource.map (VocabSource.withRefs f)
    tokenizer := c.tokenizer.map (TokenizerConf.withRefs f) }

/-- A reference to a merge becomes one to its directory; others stay. -/
def toResult (names : List Str) (dir : Str) (r : Ref) : Ref :=
  if r.model.path ∈ names then { r with model := { r.model with path := pathJoin dir r.model.path } } else r

/-- The filters of settings. -/
def settingWords : Setting K → List Str
  | .num _ => []
  | .cond c => c.filter.toList
  | .conds l => l.flatMap (fun c => c.filter.toList)

/-- The filters in parameters. -/
def paramWords (p : Option (Params K)) : List Str := (p.getD []).flatMap (fun e => settingWords e.2)

/-- The filters in slices. -/
def sliceWords (l : List (OutSlice K)) : List Str := l.flatMap (fun s => paramWords s.parameters ++ s.sources.flatMap (fun x => paramWords x.parameters))

/-- Texts in the source of a vocabulary that are no references. -/
def vocabWords : VocabSource → List Str
  | .union => [cs!"union"]
  | .base => [cs!"base"]
  | .ref _ => []

/-- Texts in the source of a token that are no references. -/
def tokenWords : Option TokenSource → List Str
  | some (.modelToken _ _ t) => cs!"model_token" :: t.toList
  | some .zero => [cs!"zero"]
  | _ => []

/-- All texts of a configuration that are no references: the method, types, the chat template, filters, tokens, and the words for a vocabulary or for a kind of token. -/
def Conf.words (c : Conf K) : List Str :=
  (c.modules.getD []).flatMap (fun m => sliceWords (m.2.slices.getD []) ++ (m.2.models.getD []).flatMap (fun x => paramWords x.parameters) ++ paramWords m.2.parameters) ++
    sliceWords (c.slices.getD []) ++ (c.models.getD []).flatMap (fun x => paramWords x.parameters) ++ [c.mergeMethod] ++ c.dtype.toList ++ (c.tokenizerSource.toList.flatMap vocabWords) ++
    (c.tokenizer.toList.flatMap (fun t => vocabWords t.source ++ (t.tokens.getD []).flatMap (fun e => tokenWords e.2.source))) ++ c.chatTemplate.toList ++ c.outDtype.toList ++ paramWords c.parameters

/-- All the keys that are free to choose: names of modules, of parameters, of tokens; by dictionary. -/
def sliceKeys (l : List (OutSlice K)) : List (List Str) := l.flatMap (fun s => (s.parameters.getD []).map Prod.fst :: s.sources.map (fun x => (x.parameters.getD []).map Prod.fst))

/-- All the keys that are free to choose: names of modules, of parameters, of tokens; by dictionary. -/
def Conf.keys (c : Conf K) : List (List Str) :=
  (c.modules.getD []).map Prod.fst :: (c.modules.getD []).flatMap (fun m => (m.2.parameters.getD []).map Prod.fst :: sliceKeys (m.2.slices.getD []) ++ (m.2.models.getD []).map (fun x => (x.parameters.getD []).map Prod.fst)) ++
    sliceKeys (c.slices.getD []) ++ (c.models.getD []).map (fun x => (x.parameters.getD []).map Prod.fst) ++
    (c.tokenizer.toList.map (fun t => (t.tokens.getD []).map Prod.fst)) ++ [(c.parameters.getD []).map Prod.fst]

/-- A text that does not look like a reference to one of the merges. -/
def Harmless (names : List Str) (s : Str) : Prop := ∃ r, ModelRef.parse s = .ok r ∧ r.model.path ∉ names

/-- A configuration in which only references look like references. -/
structure Clear (names : List Str) (c : Conf K) : Prop where
  refs : ∀ r ∈ c.refs, Writable r
  words : ∀ s ∈ c.words, Harmless names s
  keys : ∀ ks ∈ c.keys, cs!"lora" ∉ ks

/-! ## How references are replaced -/

section
variable {names : List Str} {dir : Str}

/-- The merges used are those that the references name. -/
def Uses (names : List Str) (u : List Str) (rs : List Ref) : Prop := ∀ n, n ∈ u ↔ n ∈ names ∧ n ∈ rs.map (fun r => r.model.path)

theorem Uses.nil : Uses names [] [] := by intro n; simp

theorem Uses.append {u v : List Str} {rs ss : List Ref} (h : Uses names u rs) (h' : Uses names v ss) : Uses names (u ++ v) (rs ++ ss) := by
  intro n
  rw [List.mem_append, h, h', List.map_append, List.mem_append]
  tauto

def Goes (names : List Str) (dir : Str) (d d' : Doc K) (rs : List Ref) : Prop := ∃ u, relocate names dir d = .ok (d', u) ∧ Uses names u rs

def GoesL (names : List Str) (dir : Str) (d d' : List (Doc K)) (rs : List Ref) : Prop := ∃ u, relocateList names dir d = .ok (d', u) ∧ Uses names u rs

def GoesD (names : List Str) (dir : Str) (d d' : List (Str × Doc K)) (rs : List Ref) : Prop := ∃ u, relocateDict names dir d = .ok (d', u) ∧ Uses names u rs

theorem GoesL.nil : GoesL names dir ([] : List (Doc K)) [] [] := ⟨[], by rw [relocateList], .nil⟩

theorem GoesL.cons {d d' : Doc K} {l l' : List (Doc K)} {rs ss : List Ref} (h : Goes names dir d d' rs) (h' : GoesL names dir l l' ss) : GoesL names dir (d :: l) (d' :: l') (rs ++ ss) := by
  obtain ⟨u, h1, h2⟩ := h
  obtain ⟨v, h3, h4⟩ := h'
  exact ⟨u ++ v, by rw [relocateList, h1]; simp only; rw [h3], h2.append h4⟩

theorem GoesL.map {A : Type} {f : A → Doc K} {g : A → A} {r : A → List Ref} {l : List A} (h : ∀ a ∈ l, Goes names dir (f a) (f (g a)) (r a)) :
    GoesL names dir (l.map f) ((l.map g).map f) (l.flatMap r) := by
  induction l with
  | nil => exact .nil
  | cons a l ih =>
    simp only [List.map_cons, List.flatMap_cons]
    exact .cons (h a List.mem_cons_self) (ih fun b hb => h b (List.mem_cons_of_mem _ hb))

theorem Goes.list {l l' : List (Doc K)} {rs : List Ref} (h : GoesL names dir l l' rs) : Goes names dir (.list l) (.list l') rs := by
  obtain ⟨u, h1, h2⟩ := h
  exact ⟨u, by rw [relocate, h1], h2⟩

theorem GoesD.nil : GoesD names dir ([] : List (Str × Doc K)) [] [] := ⟨[], by rw [relocateDict], .nil⟩

theorem GoesD.cons {k : Str} {d d' : Doc K} {l l' : List (Str × Doc K)} {rs ss : List Ref} (h : Goes names dir d d' rs) (h' : GoesD names dir l l' ss) :
    GoesD names dir ((k, d) :: l) ((k, d') :: l') (rs ++ ss) := by
  obtain ⟨u, h1, h2⟩ := h
  obtain ⟨v, h3, h4⟩ := h'
  exact ⟨u ++ v, by rw [relocateDict, h1]; simp only; rw [h3], h2.append h4⟩

theorem GoesD.append {a a' b b' : List (Str × Doc K)} {rs ss : List Ref} (h : GoesD names dir a a' rs) (h' : GoesD names dir b b' ss) : GoesD names dir (a ++ b) (a' ++ b') (rs ++ ss) := by
  obtain ⟨u, h1, h2⟩ := h
  obtain ⟨v, h3, h4⟩ := h'
  refine ⟨u ++ v, ?_, h2.append h4⟩
  clear h2 h4
  induction a generalizing a' u with
  | nil =>
    rw [relocateDict] at h1
    cases h1
    exact h3
  | cons e a ih =>
    obtain ⟨k, d⟩ := e
    rw [relocateDict] at h1
    cases h5 : relocate names dir d with
    | error e => rw [h5] at h1; cases h1
    | ok x =>
      rw [h5] at h1
      simp only at h1
      cases h6 : relocateDict names dir a with
      | error e => rw [h6] at h1; cases h1
      | ok y =>
        rw [h6] at h1
        cases h1
        rw [List.cons_append, relocateDict, h5]
        simp only
        rw [ih _ h6]
        simp

theorem GoesD.field {A : Type} {k : Str} {f : A → Doc K} {g : A → A} {r : A → List Ref} {o : Option A} (h : ∀ a, o = some a → Goes names dir (f a) (f (g a)) (r a)) :
    GoesD names dir (field k f o) (Document.field k f (o.map g)) (o.toList.flatMap r) := by
  cases o with
  | none => exact .nil
  | some a =>
    have := GoesD.cons (k := k) (h a rfl) GoesD.nil
    simpa [Document.field] using this

theorem GoesD.same {A : Type} {k : Str} {f : A → Doc K} {o : Option A} (h : ∀ a, o = some a → Goes names dir (f a) (f a) []) :
    GoesD names dir (Document.field k f o) (Document.field k f o) [] := by
  cases o with
  | none => exact .nil
  | some a => simpa [Document.field] using GoesD.cons (k := k) (h a rfl) GoesD.nil

theorem GoesD.map {A : Type} {f : A → Doc K} {g : A → A} {r : A → List Ref} {l : List (Str × A)} (h : ∀ e ∈ l, Goes names dir (f e.2) (f (g e.2)) (r e.2)) :
    GoesD names dir (l.map (fun e => (e.1, f e.2))) ((l.map (fun e => (e.1, g e.2))).map (fun e => (e.1, f e.2))) (l.flatMap (fun e => r e.2)) := by
  induction l with
  | nil => exact .nil
  | cons a l ih =>
    simp only [List.map_cons, List.flatMap_cons]
    exact .cons (h a List.mem_cons_self) (ih fun b hb => h b (List.mem_cons_of_mem _ hb))

theorem Goes.dict {d d' : List (Str × Doc K)} {rs : List Ref} (hn : cs!"lora" ∉ d.map Prod.fst) (h : GoesD names dir d d' rs) : Goes names dir (.dict d) (.dict d') rs := by
  obtain ⟨u, h1, h2⟩ := h
  refine ⟨u, ?_, h2⟩
  have : isRefDict d = false := by
    unfold isRefDict
    simp only [hn, decide_false, Bool.and_false]
  rw [relocate, this, h1]
  rfl

theorem Goes.word {s : Str} (h : Harmless names s) : Goes names dir (.str s : Doc K) (.str s) [] := by
  obtain ⟨r, h1, h2⟩ := h
  refine ⟨[], ?_, .nil⟩
  rw [relocate]
  unfold relocateWord
  rw [h1]
  simp only
  rw [if_neg h2]

theorem goes_int (i : Int) : Goes names dir (.int i : Doc K) (.int i) [] := ⟨[], by rw [relocate], .nil⟩
theorem goes_float (x : K) : Goes names dir (.float x : Doc K) (.float x) [] := ⟨[], by rw [relocate], .nil⟩
theorem goes_bool (b : Bool) : Goes names dir (.bool b : Doc K) (.bool b) [] := ⟨[], by rw [relocate], .nil⟩

theorem uses_one {r : Ref} (h : r.model.path ∈ names) : Uses names [r.model.path] [r] := by
  intro n
  simp only [List.mem_singleton, List.map_cons, List.map_nil]
  constructor
  · rintro rfl
    exact ⟨h, rfl⟩
  · exact fun h => h.2

theorem uses_none {r : Ref} (h : r.model.path ∉ names) : Uses names [] [r] := by
  intro n
  simp only [List.not_mem_nil, false_iff, List.map_cons, List.map_nil, List.mem_singleton]
  rintro ⟨h1, rfl⟩
  exact h h1

theorem goes_ref {r : Ref} (h : Writable r) : Goes names dir (dumpRef r : Doc K) (dumpRef (toResult names dir r)) [r] := by
  by_cases ho : r.overrideArchitecture.isSome = true
  · have hs : ∀ r : Ref, r.overrideArchitecture.isSome = true → r.serialize = .fields r := by
      intro r ho
      unfold Ref.serialize
      rw [if_pos ho]
    have ho' : (toResult names dir r).overrideArchitecture.isSome = true := by
      unfold toResult
      split <;> exact ho
    unfold dumpRef
    rw [hs r ho, hs _ ho']
    obtain ⟨⟨p, rev⟩, l, o⟩ := r
    cases o with
    | none => cases ho
    | some o =>
    by_cases hp : p ∈ names
    · refine ⟨[p], ?_, uses_one (r := ⟨⟨p, rev⟩, l, some o⟩) hp⟩
      have hd : ∀ x : Doc K, isRefDict ([(cs!"model", (dumpPath ⟨p, rev⟩ : Doc K)), (cs!"lora", x)] ++ field cs!"override_architecture" .str (some o)) = true := by
        intro x
        unfold isRefDict field MultiMerge.refFields
        simp only [List.cons_append, List.nil_append, List.map_cons, List.map_nil]
        decide
      simp only [toResult, if_pos hp]
      rw [relocate, if_pos (hd _)]
      unfold relocateRef
      simp only [List.cons_append, List.nil_append, List.lookup_cons, beq_self_eq_true, dumpPath]
      rw [if_pos hp]
      unfold replaced field
      cases rev <;> simp
    · refine ⟨[], ?_, uses_none (r := ⟨⟨p, rev⟩, l, some o⟩) hp⟩
      have hd : ∀ x : Doc K, isRefDict ([(cs!"model", (dumpPath ⟨p, rev⟩ : Doc K)), (cs!"lora", x)] ++ field cs!"override_architecture" .str (some o)) = true := by
        intro x
        unfold isRefDict field MultiMerge.refFields
        simp only [List.cons_append, List.nil_append, List.map_cons, List.map_nil]
        decide
      simp only [toResult, if_neg hp]
      rw [relocate, if_pos (hd _)]
      unfold relocateRef
      simp only [List.cons_append, List.nil_append, List.lookup_cons, beq_self_eq_true, dumpPath]
      rw [if_neg hp]
  · rcases h with h | ⟨h1, h2, h3⟩
    · exact absurd h ho
    · have hs : r.serialize = .str r.print := by
        unfold Ref.serialize
        rw [if_neg ho, if_neg (by simp [h2, h3])]
      have hd : (dumpRef r : Doc K) = .str r.print := by
        unfold dumpRef
        rw [hs]
      have hp := ModelRef.C24_parse_print r h1
      rw [hd]
      by_cases hin : r.model.path ∈ names
      · refine ⟨[r.model.path], ?_, uses_one hin⟩
        rw [relocate]
        unfold relocateWord
        rw [hp]
        simp only [toResult]
        rw [if_pos hin, if_pos hin]
      · refine ⟨[], ?_, uses_none hin⟩
        rw [relocate]
        unfold relocateWord
        rw [hp]
        simp only [toResult]
        rw [if_neg hin, if_neg hin, hd]

theorem no_lora {A : Type} {k : Str} {f : A → Doc K} {o : Option A} (h : k ≠ cs!"lora") : cs!"lora" ∉ (field k f o).map Prod.fst := by
  cases o with
  | none => simp [field]
  | some a =>
    simp only [field, List.map_cons, List.map_nil, List.mem_singleton]
    exact fun e => h e.symm

theorem no_lora_append {a b : List (Str × Doc K)} (h : cs!"lora" ∉ a.map Prod.fst) (h' : cs!"lora" ∉ b.map Prod.fst) : cs!"lora" ∉ (a ++ b).map Prod.fst := by
  rw [List.map_append, List.mem_append]
  tauto

theorem no_lora_cons {k : Str} {d : Doc K} {b : List (Str × Doc K)} (h : k ≠ cs!"lora") (h' : cs!"lora" ∉ b.map Prod.fst) : cs!"lora" ∉ ((k, d) :: b).map Prod.fst := by
  rw [List.map_cons, List.mem_cons]
  rintro (e | e)
  · exact h e.symm
  · exact h' e

theorem Goes.to {d d' : Doc K} {rs ss : List Ref} (h : Goes names dir d d' rs) (e : ∀ r, r ∈ rs ↔ r ∈ ss) : Goes names dir d d' ss := by
  obtain ⟨u, h1, h2⟩ := h
  refine ⟨u, h1, fun n => ?_⟩
  rw [h2 n]
  simp only [List.mem_map, e]

theorem none_of {A : Type} (l : List A) : l.flatMap (fun _ => ([] : List Ref)) = [] := by
  induction l with
  | nil => rfl
  | cons a l ih => rw [List.flatMap_cons, ih, List.nil_append]

theorem each_of {A : Type} (f : A → Ref) (l : List A) : l.flatMap (fun x => [f x]) = l.map f := by
  induction l with
  | nil => rfl
  | cons a l ih => rw [List.flatMap_cons, ih, List.map_cons, List.singleton_append]

theorem goes_num (n : Num K) : Goes names dir (dumpNum n) (dumpNum n) [] := by
  cases n with
  | one x => exact goes_float x
  | many l =>
    refine .list ?_
    have := GoesL.map (names := names) (dir := dir) (f := Doc.float) (g := id) (r := fun _ => []) (l := l) (fun a _ => goes_float a)
    rw [none_of] at this
    simpa using this

theorem goes_cond (c : Cond K) (h : ∀ s ∈ c.filter.toList, Harmless names s) : Goes names dir (dumpCond c) (dumpCond c) [] := by
  refine .dict (no_lora_cons (by decide) (no_lora (by decide))) ?_
  simpa using GoesD.cons (k := cs!"value") (goes_num c.value) (GoesD.same (k := cs!"filter") (f := Doc.str) (o := c.filter) (fun a ha => .word (h a (by simp [ha]))))

theorem goes_setting (s : Setting K) (h : ∀ w ∈ settingWords s, Harmless names w) : Goes names dir (dumpSetting s) (dumpSetting s) [] := by
  cases s with
  | num n => exact goes_num n
  | cond c => exact goes_cond c h
  | conds l =>
    refine .list ?_
    have := GoesL.map (names := names) (dir := dir) (f := dumpCond) (g := id) (r := fun _ => []) (l := l) (fun a ha => goes_cond a (fun s hs => h s (List.mem_flatMap.2 ⟨a, ha, hs⟩)))
    rw [none_of] at this
    simpa using this

theorem goes_params {p : Option (Params K)} (h : ∀ w ∈ paramWords p, Harmless names w) (hk : cs!"lora" ∉ (p.getD []).map Prod.fst) :
    GoesD names dir (field cs!"parameters" dumpParams p) (field cs!"parameters" dumpParams p) [] := by
  refine .same (fun q hq => ?_)
  subst hq
  have := GoesD.map (names := names) (dir := dir) (f := dumpSetting) (g := id) (r := fun _ => []) (l := q)
    (fun e he => goes_setting e.2 (fun s hs => h s (List.mem_flatMap.2 ⟨e, he, hs⟩)))
  rw [none_of] at this
  refine .dict ?_ (by simpa using this)
  rw [List.map_map]
  exact hk

theorem goes_inSlice {s : InSlice K} (hr : Writable s.model) (h : ∀ w ∈ paramWords s.parameters, Harmless names w) (hk : cs!"lora" ∉ (s.parameters.getD []).map Prod.fst) :
    Goes names dir (dumpInSlice s) (dumpInSlice { s with model := toResult names dir s.model }) [s.model] := by
  refine .dict (no_lora_append (no_lora_cons (by decide) (no_lora_cons (by decide) (by simp))) (no_lora (by decide))) ?_
  simpa using GoesD.append (GoesD.cons (k := cs!"model") (goes_ref hr) (GoesD.cons (k := cs!"layer_range") (.list (.cons (goes_int s.start) (.cons (goes_int s.stop) .nil))) .nil)) (goes_params h hk)

theorem goes_inModel {s : InModel K} (hr : Writable s.model) (h : ∀ w ∈ paramWords s.parameters, Harmless names w) (hk : cs!"lora" ∉ (s.parameters.getD []).map Prod.fst) :
    Goes names dir (dumpInModel s) (dumpInModel (s.withRefs (toResult names dir))) [s.model] := by
  refine .dict (no_lora_cons (by decide) (no_lora (by decide))) ?_
  simpa [InModel.withRefs] using GoesD.cons (k := cs!"model") (goes_ref hr) (goes_params h hk)

theorem goes_outSlice {s : OutSlice K} (hr : ∀ r ∈ sliceRefs [s], Writable r) (h : ∀ w ∈ sliceWords [s], Harmless names w) (hk : ∀ ks ∈ sliceKeys [s], cs!"lora" ∉ ks) :
    Goes names dir (dumpOutSlice s) (dumpOutSlice (s.withRefs (toResult names dir))) (sliceRefs [s]) := by
  simp only [sliceRefs, sliceWords, sliceKeys, List.flatMap_cons, List.flatMap_nil, List.append_nil] at hr h hk
  have h1 : Goes names dir (dumpList dumpInSlice s.sources) (dumpList dumpInSlice (s.withRefs (toResult names dir)).sources) (s.sources.flatMap (fun x => [x.model])) :=
    .list (GoesL.map (g := fun x : InSlice K => { x with model := toResult names dir x.model }) (fun x hx => goes_inSlice (hr _ (List.mem_append_right _ (List.mem_map.2 ⟨x, hx, rfl⟩)))
      (fun w hw => h w (List.mem_append_right _ (List.mem_flatMap.2 ⟨x, hx, hw⟩))) (hk _ (List.mem_cons_of_mem _ (List.mem_map.2 ⟨x, hx, rfl⟩)))))
  have h2 := GoesD.field (names := names) (dir := dir) (k := cs!"base_model") (f := (dumpRef : Ref → Doc K)) (g := toResult names dir) (r := fun r => [r]) (o := s.baseModel)
    (fun r e => goes_ref (hr r (List.mem_append_left _ (by simp [e]))))
  have h3 := GoesD.same (names := names) (dir := dir) (k := cs!"residual_weight") (f := (Doc.float : K → Doc K)) (o := s.residualWeight) (fun x _ => goes_float x)
  have h4 := goes_params (names := names) (dir := dir) (p := s.parameters) (fun w hw => h w (List.mem_append_left _ hw)) (hk _ List.mem_cons_self)
  refine Goes.to (.dict (no_lora_append (no_lora_append (no_lora_cons (by decide) (no_lora (by decide))) (no_lora (by decide))) (no_lora (by decide)))
    (GoesD.append (GoesD.append (GoesD.cons h1 h2) h3) h4)) ?_
  intro r
  rw [each_of, each_of, List.map_id']
  simp only [sliceRefs, List.flatMap_cons, List.flatMap_nil, List.append_nil, List.mem_append]
  exact or_comm

theorem sliceRefs_mem {l : List (OutSlice K)} {s : OutSlice K} (hs : s ∈ l) : ∀ r ∈ sliceRefs [s], r ∈ sliceRefs l := by
  intro r hr
  simp only [sliceRefs, List.flatMap_cons, List.flatMap_nil, List.append_nil] at hr
  exact List.mem_flatMap.2 ⟨s, hs, hr⟩

theorem sliceWords_mem {l : List (OutSlice K)} {s : OutSlice K} (hs : s ∈ l) : ∀ r ∈ sliceWords [s], r ∈ sliceWords l := by
  intro r hr
  simp only [sliceWords, List.flatMap_cons, List.flatMap_nil, List.append_nil] at hr
  exact List.mem_flatMap.2 ⟨s, hs, hr⟩

theorem sliceKeys_mem {l : List (OutSlice K)} {s : OutSlice K} (hs : s ∈ l) : ∀ r ∈ sliceKeys [s], r ∈ sliceKeys l := by
  intro r hr
  simp only [sliceKeys, List.flatMap_cons, List.flatMap_nil, List.append_nil] at hr
  exact List.mem_flatMap.2 ⟨s, hs, hr⟩

theorem sliceRefs_each (l : List (OutSlice K)) : l.flatMap (fun s => sliceRefs [s]) = sliceRefs l := by
  simp only [sliceRefs, List.flatMap_cons, List.flatMap_nil, List.append_nil]

theorem goes_slices {o : Option (List (OutSlice K))} (hr : ∀ r ∈ sliceRefs (o.getD []), Writable r) (h : ∀ w ∈ sliceWords (o.getD []), Harmless names w) (hk : ∀ ks ∈ sliceKeys (o.getD []), cs!"lora" ∉ ks) :
    GoesD names dir (field cs!"slices" (dumpList dumpOutSlice) o) (field cs!"slices" (dumpList dumpOutSlice) (o.map (·.map (OutSlice.withRefs (toResult names dir))))) (sliceRefs (o.getD [])) := by
  cases o with
  | none => exact .nil
  | some l =>
    have h1 : Goes names dir (dumpList dumpOutSlice l) (dumpList dumpOutSlice (l.map (OutSlice.withRefs (toResult names dir)))) (sliceRefs l) := by
      have := Goes.list (GoesL.map (names := names) (dir := dir) (f := dumpOutSlice) (g := OutSlice.withRefs (toResult names dir)) (r := fun s : OutSlice K => sliceRefs [s]) (l := l)
        (fun s hs => goes_outSlice (fun r hr' => hr r (sliceRefs_mem hs r hr')) (fun r hr' => h r (sliceWords_mem hs r hr')) (fun r hr' => hk r (sliceKeys_mem hs r hr'))))
      rw [sliceRefs_each] at this
      exact this
    simpa [field] using GoesD.cons (k := cs!"slices") h1 .nil

theorem goes_models {o : Option (List (InModel K))} (hr : ∀ x ∈ o.getD [], Writable x.model) (h : ∀ x ∈ o.getD [], ∀ w ∈ paramWords x.parameters, Harmless names w)
    (hk : ∀ x ∈ o.getD [], cs!"lora" ∉ (x.parameters.getD []).map Prod.fst) :
    GoesD names dir (field cs!"models" (dumpList dumpInModel) o) (field cs!"models" (dumpList dumpInModel) (o.map (·.map (InModel.withRefs (toResult names dir))))) ((o.getD []).map (fun x => x.model)) := by
  cases o with
  | none => exact .nil
  | some l =>
    have h1 : Goes names dir (dumpList dumpInModel l) (dumpList dumpInModel (l.map (InModel.withRefs (toResult names dir)))) (l.flatMap (fun x => [x.model])) :=
      Goes.list (GoesL.map (fun s hs => goes_inModel (hr s hs) (h s hs) (hk s hs)))
    rw [each_of] at h1
    simpa [field] using GoesD.cons (k := cs!"models") h1 .nil

theorem goes_module {m : OutModule K} (hr : ∀ r ∈ sliceRefs (m.slices.getD []) ++ (m.models.getD []).map (fun x => x.model), Writable r)
    (h : ∀ w ∈ sliceWords (m.slices.getD []) ++ (m.models.getD []).flatMap (fun x => paramWords x.parameters) ++ paramWords m.parameters, Harmless names w)
    (hk : ∀ ks ∈ (m.parameters.getD []).map Prod.fst :: sliceKeys (m.slices.getD []) ++ (m.models.getD []).map (fun x => (x.parameters.getD []).map Prod.fst), cs!"lora" ∉ ks) :
    Goes names dir (dumpOutModule m) (dumpOutModule (m.withRefs (toResult names dir))) (sliceRefs (m.slices.getD []) ++ (m.models.getD []).map (fun x => x.model)) := by
  refine .dict (no_lora_append (no_lora_append (no_lora (by decide)) (no_lora (by decide))) (no_lora (by decide))) ?_
  have h1 := goes_slices (names := names) (dir := dir) (o := m.slices) (fun r hh => hr r (List.mem_append_left _ hh)) (fun w hh => h w (List.mem_append_left _ (List.mem_append_left _ hh)))
    (fun ks hh => hk ks (List.mem_append_left _ (List.mem_cons_of_mem _ hh)))
  have h2 := goes_models (names := names) (dir := dir) (o := m.models) (fun x hx => hr _ (List.mem_append_right _ (List.mem_map.2 ⟨x, hx, rfl⟩)))
    (fun x hx w hw => h w (List.mem_append_left _ (List.mem_append_right _ (List.mem_flatMap.2 ⟨x, hx, hw⟩)))) (fun x hx => hk _ (List.mem_append_right _ (List.mem_map.2 ⟨x, hx, rfl⟩)))
  have h3 := goes_params (names := names) (dir := dir) (p := m.parameters) (fun w hh => h w (List.mem_append_right _ hh)) (hk _ (List.mem_append_left _ List.mem_cons_self))
  simpa [OutModule.withRefs] using GoesD.append (GoesD.append h1 h2) h3

theorem goes_vocab {v : VocabSource} (hr : ∀ r ∈ vocabRefs v, Writable r) (h : ∀ w ∈ vocabWords v, Harmless names w) :
    Goes names dir (dumpVocabSource v : Doc K) (dumpVocabSource (v.withRefs (toResult names dir))) (vocabRefs v) := by
  cases v with
  | union => exact .word (h _ List.mem_cons_self)
  | base => exact .word (h _ List.mem_cons_self)
  | ref r => exact goes_ref (hr r List.mem_cons_self)

theorem goes_tokenSource {s : TokenSource} (hr : ∀ r ∈ tokenRefs (some s), Writable r) (h : ∀ w ∈ tokenWords (some s), Harmless names w) :
    Goes names dir (dumpTokenSource s : Doc K) (dumpTokenSource (s.withRefs (toResult names dir))) (tokenRefs (some s)) := by
  cases s with
  | modelToken m i t =>
    refine .dict (no_lora_append (no_lora_append (no_lora_cons (by decide) (no_lora_cons (by decide) (by simp))) (no_lora (by decide))) (no_lora (by decide))) ?_
    simpa [tokenRefs] using GoesD.append (GoesD.append (GoesD.cons (K := K) (k := cs!"kind") (.word (h _ List.mem_cons_self)) (GoesD.cons (k := cs!"model") (goes_ref (hr m List.mem_cons_self)) .nil))
      (GoesD.same (k := cs!"token_id") (f := Doc.int) (o := i) (fun x _ => goes_int x))) (GoesD.same (k := cs!"token") (f := Doc.str) (o := t) (fun x e => .word (h x (List.mem_cons_of_mem _ (by simp [e])))))
  | zero =>
    refine .dict (no_lora_cons (by decide) (by simp)) ?_
    simpa [tokenRefs] using GoesD.cons (K := K) (k := cs!"kind") (.word (h _ List.mem_cons_self)) .nil
  | ref r => exact goes_ref (hr r List.mem_cons_self)

theorem goes_token {c : TokenConf} (hr : ∀ r ∈ tokenRefs c.source, Writable r) (h : ∀ w ∈ tokenWords c.source, Harmless names w) :
    Goes names dir (dumpTokenConf true c : Doc K) (dumpTokenConf true (c.withRefs (toResult names dir))) (tokenRefs c.source) := by
  have h1 : GoesD names dir (field cs!"source" dumpTokenSource c.source : List (Str × Doc K)) (field cs!"source" dumpTokenSource (c.source.map (TokenSource.withRefs (toResult names dir)))) (tokenRefs c.source) := by
    cases hs : c.source with
    | none => exact .nil
    | some s =>
      rw [hs] at hr h
      simpa [field] using GoesD.cons (K := K) (k := cs!"source") (goes_tokenSource hr h) .nil
  refine .dict (no_lora_append (no_lora (by decide)) ?_) ?_
  · simp only [Bool.true_or, if_true]
    exact no_lora_cons (by decide) (by simp)
  · simpa [TokenConf.withRefs] using GoesD.append h1 (GoesD.cons (k := cs!"force") (goes_bool c.force) .nil)

theorem goes_tokens {l : List (Str × TokenConf)} (hr : ∀ e ∈ l, ∀ r ∈ tokenRefs e.2.source, Writable r) (h : ∀ e ∈ l, ∀ w ∈ tokenWords e.2.source, Harmless names w) (hk : cs!"lora" ∉ l.map Prod.fst) :
    Goes names dir (dumpDict (dumpTokenConf true) l : Doc K) (dumpDict (dumpTokenConf true) (l.map (fun e => (e.1, e.2.withRefs (toResult names dir))))) (l.flatMap (fun e => tokenRefs e.2.source)) := by
  refine .dict ?_ (GoesD.map (f := dumpTokenConf true) (g := TokenConf.withRefs (toResult names dir)) (r := fun c => tokenRefs c.source) (fun e he => goes_token (hr e he) (h e he)))
  rw [List.map_map]
  exact hk

theorem goes_tokenizer {t : TokenizerConf} (hv : ∀ r ∈ vocabRefs t.source, Writable r) (hw : ∀ w ∈ vocabWords t.source, Harmless names w)
    (hr : ∀ e ∈ t.tokens.getD [], ∀ r ∈ tokenRefs e.2.source, Writable r) (h : ∀ e ∈ t.tokens.getD [], ∀ w ∈ tokenWords e.2.source, Harmless names w) (hk : cs!"lora" ∉ (t.tokens.getD []).map Prod.fst) :
    Goes names dir (dumpTokenizer true t : Doc K) (dumpTokenizer true (t.withRefs (toResult names dir))) (vocabRefs t.source ++ t.tokens.toList.flatMap (fun l => l.flatMap (fun e => tokenRefs e.2.source))) := by
  have h1 := GoesD.field (K := K) (names := names) (dir := dir) (k := cs!"tokens") (f := dumpDict (dumpTokenConf true)) (g := fun l => l.map (fun e => (e.1, e.2.withRefs (toResult names dir))))
    (r := fun l => l.flatMap (fun e => tokenRefs e.2.source)) (o := t.tokens) (fun l hl => goes_tokens (by rw [hl] at hr; exact hr) (by rw [hl] at h; exact h) (by rw [hl] at hk; exact hk))
  have h2 := GoesD.same (K := K) (names := names) (dir := dir) (k := cs!"pad_to_multiple_of") (f := Doc.int) (o := t.pad) (fun x _ => goes_int x)
  have h3 := GoesD.append (GoesD.append (GoesD.cons (k := cs!"source") (goes_vocab (K := K) hv hw) .nil) h1) h2
  refine .dict (no_lora_append (no_lora_append ?_ (no_lora (by decide))) (no_lora (by decide))) ?_
  · simp only [Bool.true_or, if_true]
    exact no_lora_cons (by decide) (by simp)
  · simpa [TokenizerConf.withRefs] using h3

/-- All the references of a configuration to merges are replaced, nothing else is, and the merges they name are noted. -/
theorem goes_conf {c : Conf K} (h : Clear names c) : Goes names dir (dump true c) (dump true (c.withRefs (toResult names dir))) c.refs := by
  obtain ⟨hr, hw, hk⟩ := h
  simp only [Conf.refs, Conf.vocabs, List.mem_append] at hr
  simp only [Conf.words, List.mem_append] at hw
  simp only [Conf.keys, List.mem_append, List.mem_cons] at hk
  have h1 := GoesD.field (names := names) (dir := dir) (k := cs!"modules") (f := dumpDict dumpOutModule) (g := fun l => l.map (fun e => (e.1, e.2.withRefs (toResult names dir))))
    (r := fun l => l.flatMap (fun e => sliceRefs (e.2.slices.getD []) ++ (e.2.models.getD []).map (fun x => x.model))) (o := c.modules) (fun l hl => by
      refine .dict ?_ (GoesD.map (f := dumpOutModule) (g := OutModule.withRefs (toResult names dir)) (r := fun m => sliceRefs (m.slices.getD []) ++ (m.models.getD []).map (fun x => x.model)) (fun e he => goes_module ?_ ?_ ?_))
      · rw [List.map_map]
        have := hk (l.map Prod.fst) (by rw [hl]; simp)
        exact this
      · intro r hh
        exact hr r (by rw [hl]; simp only [Option.getD_some, List.mem_flatMap]; exact Or.inl (Or.inl (Or.inl (Or.inl (Or.inl ⟨e, he, hh⟩)))))
      · intro w hh
        have : w ∈ (c.modules.getD []).flatMap (fun m => sliceWords (m.2.slices.getD []) ++ (m.2.models.getD []).flatMap (fun x => paramWords x.parameters) ++ paramWords m.2.parameters) := by
          rw [hl]; exact List.mem_flatMap.2 ⟨e, he, hh⟩
        exact hw w (by tauto)
      · intro ks hh
        have : ks ∈ (c.modules.getD []).flatMap (fun m => (m.2.parameters.getD []).map Prod.fst :: sliceKeys (m.2.slices.getD []) ++ (m.2.models.getD []).map (fun x => (x.parameters.getD []).map Prod.fst)) := by
          rw [hl]; exact List.mem_flatMap.2 ⟨e, he, hh⟩
        exact hk ks (by tauto))
  have h2 := goes_slices (names := names) (dir := dir) (o := c.slices) (fun r hh => hr r (by tauto)) (fun w hh => hw w (by tauto)) (fun ks hh => hk ks (by tauto))
  have h3 := goes_models (names := names) (dir := dir) (o := c.models) (fun x hx => hr _ (by have : x.model ∈ (c.models.getD []).map (fun x => x.model) := List.mem_map.2 ⟨x, hx, rfl⟩; tauto))
    (fun x hx w hh => hw w (by have : w ∈ (c.models.getD []).flatMap (fun x => paramWords x.parameters) := List.mem_flatMap.2 ⟨x, hx, hh⟩; tauto))
    (fun x hx => hk _ (by have : (x.parameters.getD []).map Prod.fst ∈ (c.models.getD []).map (fun x => (x.parameters.getD []).map Prod.fst) := List.mem_map.2 ⟨x, hx, rfl⟩; tauto))
  have h4 : GoesD names dir [(cs!"merge_method", (Doc.str c.mergeMethod : Doc K))] [(cs!"merge_method", .str c.mergeMethod)] [] := by
    simpa using GoesD.cons (K := K) (k := cs!"merge_method") (.word (hw c.mergeMethod (by simp))) .nil
  have h5 := GoesD.field (names := names) (dir := dir) (k := cs!"base_model") (f := (dumpRef : Ref → Doc K)) (g := toResult names dir) (r := fun r => [r]) (o := c.baseModel)
    (fun r e => goes_ref (hr r (by have : r ∈ c.baseModel.toList := (by simp [e]); tauto)))
  have hs : ∀ (k : Str) (o : Option Str), (∀ s ∈ o.toList, Harmless names s) → GoesD names dir (field k (Doc.str : Str → Doc K) o) (field k Doc.str o) [] :=
    fun k o ho => .same (fun s e => .word (ho s (by simp [e])))
  have h6 := hs cs!"dtype" c.dtype (fun s hh => hw s (by tauto))
  have h7 := GoesD.field (names := names) (dir := dir) (k := cs!"tokenizer_source") (f := (dumpVocabSource : VocabSource → Doc K)) (g := VocabSource.withRefs (toResult names dir)) (r := vocabRefs) (o := c.tokenizerSource)
    (fun v e => goes_vocab (fun r hh => hr r (by rw [e]; simp only [Option.map_some, Option.getD_some]; tauto)) (fun w hh => hw w (by
      have : w ∈ c.tokenizerSource.toList.flatMap vocabWords := (by rw [e]; simpa using hh)
      tauto)))
  have h8 := GoesD.field (names := names) (dir := dir) (k := cs!"tokenizer") (f := (dumpTokenizer true : TokenizerConf → Doc K)) (g := TokenizerConf.withRefs (toResult names dir))
    (r := fun t => vocabRefs t.source ++ t.tokens.toList.flatMap (fun l => l.flatMap (fun e => tokenRefs e.2.source))) (o := c.tokenizer) (fun t e => by
      have hwords : ∀ w ∈ vocabWords t.source ++ (t.tokens.getD []).flatMap (fun e => tokenWords e.2.source), Harmless names w := fun w hh => hw w (by
        have : w ∈ c.tokenizer.toList.flatMap (fun t => vocabWords t.source ++ (t.tokens.getD []).flatMap (fun e => tokenWords e.2.source)) := (by rw [e]; simpa using hh)
        tauto)
      refine goes_tokenizer (fun r hh => hr r (by rw [e]; simp only [Option.map_some, Option.getD_some]; tauto)) (fun w hh => hwords w (List.mem_append_left _ hh)) ?_
        (fun x hx w hh => hwords w (List.mem_append_right _ (List.mem_flatMap.2 ⟨x, hx, hh⟩))) (hk _ (by rw [e]; simp))
      intro x hx r hh
      refine hr r ?_
      have : r ∈ (c.tokenizer.bind (fun t => t.tokens)).toList.flatMap (fun l => l.flatMap (fun e => tokenRefs e.2.source)) := by
        rw [e]
        simp only [Option.bind_some]
        cases hl : t.tokens with
        | none => rw [hl] at hx; cases hx
        | some l =>
          rw [hl] at hx
          simp only [Option.toList_some, List.flatMap_cons, List.flatMap_nil, List.append_nil]
          exact List.mem_flatMap.2 ⟨x, hx, hh⟩
      tauto)
  have h9 := hs cs!"chat_template" c.chatTemplate (fun s hh => hw s (by tauto))
  have h10 := hs cs!"out_dtype" c.outDtype (fun s hh => hw s (by tauto))
  have h11 := goes_params (names := names) (dir := dir) (p := c.parameters) (fun w hh => hw w (by tauto)) (hk _ (by simp))
  refine Goes.to (.dict ?_ (GoesD.append (GoesD.append (GoesD.append (GoesD.append (GoesD.append (GoesD.append (GoesD.append (GoesD.append (GoesD.append (GoesD.append h1 h2) h3) h4) h5) h6) h7) h8) h9) h10) h11)) ?_
  · refine no_lora_append (no_lora_append (no_lora_append (no_lora_append (no_lora_append (no_lora_append (no_lora_append (no_lora_append (no_lora_append (no_lora_append
      (no_lora (by decide)) (no_lora (by decide))) (no_lora (by decide))) (no_lora_cons (by decide) (by simp))) (no_lora (by decide))) (no_lora (by decide))) (no_lora (by decide))) (no_lora (by decide))) (no_lora (by decide)))
      (no_lora (by decide))) (no_lora (by decide))
  · intro r
    have e1 : ∀ o : Option Ref, o.toList.flatMap (fun r => [r]) = o.toList := by intro o; cases o <;> rfl
    have e2 : c.modules.toList.flatMap (fun l => l.flatMap (fun e => sliceRefs (e.2.slices.getD []) ++ (e.2.models.getD []).map (fun x => x.model))) =
        (c.modules.getD []).flatMap (fun e => sliceRefs (e.2.slices.getD []) ++ (e.2.models.getD []).map (fun x => x.model)) := by cases c.modules <;> simp
    have e3 : c.tokenizerSource.toList.flatMap vocabRefs = (c.tokenizerSource.map vocabRefs).getD [] := by cases c.tokenizerSource <;> simp
    have e4 : c.tokenizer.toList.flatMap (fun t => vocabRefs t.source ++ t.tokens.toList.flatMap (fun l => l.flatMap (fun e => tokenRefs e.2.source))) =
        (c.tokenizer.map (fun t => vocabRefs t.source)).getD [] ++ (c.tokenizer.bind (fun t => t.tokens)).toList.flatMap (fun l => l.flatMap (fun e => tokenRefs e.2.source)) := by cases c.tokenizer <;> simp
    rw [e1, e2, e3, e4]
    simp only [Conf.refs, Conf.vocabs, List.mem_append, List.not_mem_nil, or_false]
    tauto

/-! ## The configurations with references replaced are read again -/

theorem sliceRefs_with (f : Ref → Ref) (l : List (OutSlice K)) : sliceRefs (l.map (OutSlice.withRefs f)) = (sliceRefs l).map f := by
  induction l with
  | nil => rfl
  | cons s l ih =>
    have h : sliceRefs [s.withRefs f] = (sliceRefs [s]).map f := by
      cases hb : s.baseModel <;> simp [sliceRefs, OutSlice.withRefs, hb, Function.comp_def]
    have e : ∀ (a : OutSlice K) (t : List (OutSlice K)), sliceRefs (a :: t) = sliceRefs [a] ++ sliceRefs t := by intro a t; simp [sliceRefs]
    rw [List.map_cons, e, e s, List.map_append, ih, h]

theorem vocabRefs_with (f : Ref → Ref) (v : VocabSource) : vocabRefs (v.withRefs f) = (vocabRefs v).map f := by cases v <;> rfl

theorem tokenRefs_with (f : Ref → Ref) (s : Option TokenSource) : tokenRefs (s.map (TokenSource.withRefs f)) = (tokenRefs s).map f := by
  cases s with
  | none => rfl
  | some s => cases s <;> rfl

theorem vocabs_with (f : Ref → Ref) (c : Conf K) : (c.withRefs f).vocabs = c.vocabs.map f := by
  simp only [Conf.vocabs, Conf.withRefs, List.map_append]
  cases c.tokenizerSource <;> cases c.tokenizer <;> simp [vocabRefs_with, TokenizerConf.withRefs]

theorem getD_map {A B : Type} (g : A → B) (o : Option (List A)) : (o.map (·.map g)).getD [] = (o.getD []).map g := by cases o <;> rfl

theorem refs_with (f : Ref → Ref) (c : Conf K) : (c.withRefs f).refs = c.refs.map f := by
  simp only [Conf.refs, vocabs_with, List.map_append]
  have h1 : (((c.withRefs f).modules.getD []).flatMap (fun m => sliceRefs (m.2.slices.getD []) ++ (m.2.models.getD []).map (fun x => x.model))) =
      ((c.modules.getD []).flatMap (fun m => sliceRefs (m.2.slices.getD []) ++ (m.2.models.getD []).map (fun x => x.model))).map f := by
    simp only [Conf.withRefs, getD_map, List.flatMap_map, List.map_flatMap, OutModule.withRefs, List.map_append, sliceRefs_with, List.map_map]
    rfl
  have h2 : sliceRefs ((c.withRefs f).slices.getD []) = (sliceRefs (c.slices.getD [])).map f := by simp only [Conf.withRefs, getD_map, sliceRefs_with]
  have h3 : ((c.withRefs f).models.getD []).map (fun x => x.model) = ((c.models.getD []).map (fun x => x.model)).map f := by
    simp only [Conf.withRefs, getD_map, List.map_map]
    rfl
  have h4 : (c.withRefs f).baseModel.toList = c.baseModel.toList.map f := by simp only [Conf.withRefs]; cases c.baseModel <;> rfl
  have h5 : ((c.withRefs f).tokenizer.bind (fun t => t.tokens)).toList.flatMap (fun l => l.flatMap (fun e => tokenRefs e.2.source)) =
      ((c.tokenizer.bind (fun t => t.tokens)).toList.flatMap (fun l => l.flatMap (fun e => tokenRefs e.2.source))).map f := by
    simp only [Conf.withRefs]
    cases ht : c.tokenizer with
    | none => rfl
    | some t =>
      simp only [Option.map_some, Option.bind_some, TokenizerConf.withRefs]
      cases hl : t.tokens with
      | none => rfl
      | some l => simp [TokenConf.withRefs, tokenRefs_with, List.flatMap_map, List.map_flatMap]
  rw [h1, h2, h3, h4, h5]

theorem given_map {A B : Type} (g : A → B) (o : Option (List A)) : given (o.map (·.map g)) = given o := by
  cases o with
  | none => rfl
  | some l => cases l <;> rfl

theorem slice_with {f : Ref → Ref} {s : OutSlice K} (h : SliceNormal s) : SliceNormal (s.withRefs f) := by
  refine ⟨h.1, fun x hx => ?_⟩
  obtain ⟨y, hy, rfl⟩ := List.mem_map.1 hx
  exact h.2 y hy

theorem normal_with {f : Ref → Ref} {c : Conf K} (h : Normal c) : Normal (c.withRefs f) := by
  refine ⟨?_, ?_, ?_, h.params, ?_, ?_⟩
  · intro e he
    simp only [Conf.withRefs, getD_map, List.mem_map] at he
    obtain ⟨e', he', rfl⟩ := he
    have h' := h.modules e' he'
    refine ⟨?_, ?_, h'.params, ?_⟩
    · intro s hs
      simp only [OutModule.withRefs, getD_map, List.mem_map] at hs
      obtain ⟨s', hs', rfl⟩ := hs
      exact slice_with (h'.slices s' hs')
    · intro s hs
      simp only [OutModule.withRefs, getD_map, List.mem_map] at hs
      obtain ⟨s', hs', rfl⟩ := hs
      exact h'.models s' hs'
    · simp only [OutModule.withRefs, given_map]
      exact h'.one
  · intro s hs
    simp only [Conf.withRefs, getD_map, List.mem_map] at hs
    obtain ⟨s', hs', rfl⟩ := hs
    exact slice_with (h.slices s' hs')
  · intro s hs
    simp only [Conf.withRefs, getD_map, List.mem_map] at hs
    obtain ⟨s', hs', rfl⟩ := hs
    exact h.models s' hs'
  · intro t l ht hl e he
    simp only [Conf.withRefs] at ht
    cases ht' : c.tokenizer with
    | none => rw [ht'] at ht; cases ht
    | some t' =>
      rw [ht'] at ht
      cases ht
      simp only [TokenizerConf.withRefs] at hl
      cases hl' : t'.tokens with
      | none => rw [hl'] at hl; cases hl
      | some l' =>
        rw [hl'] at hl
        cases hl
        obtain ⟨e', he', rfl⟩ := List.mem_map.1 he
        have h' := h.tokens t' l' ht' hl' e' he'
        intro m i t hs
        simp only [TokenConf.withRefs] at hs
        cases hs' : e'.2.source with
        | none => rw [hs'] at hs; cases hs
        | some s' =>
          rw [hs'] at hs
          cases s' with
          | modelToken m' i' t'' => cases hs; exact h' m' _ _ hs'
          | zero => cases hs
          | ref r => cases hs
  · have h' := h.check
    unfold check at h' ⊢
    simp only [Conf.withRefs, given_map, Option.isSome_map] at h' ⊢
    revert h'
    generalize given c.modules = x
    generalize given c.slices = y
    generalize given c.models = z
    generalize c.tokenizerSource.isSome = v
    generalize c.tokenizer.isSome = w
    cases x <;> cases y <;> cases z <;> cases v <;> cases w <;> simp

/-- A directory for intermediate results whose name has no separators of references, no blanks and no quotation marks. -/
structure Ordinary (dir : Str) : Prop where
  some : dir ≠ []
  sep : NoSep dir
  quote : '"' ∉ dir
  blank : ' ' ∉ dir

theorem mem_join {dir n : Str} {x : Char} (h : x ∈ pathJoin dir n) : x ∈ dir ∨ x ∈ n ∨ x = '/' := by
  unfold pathJoin at h
  split at h
  · exact Or.inr (Or.inl h)
  · split at h
    · simp only [List.mem_append] at h; tauto
    · simp only [List.mem_append, List.mem_cons] at h; tauto

theorem slash_join {dir n : Str} (hd : dir ≠ []) : '/' ∈ pathJoin dir n := by
  unfold pathJoin
  split
  · rename_i h
    exact List.mem_of_mem_head? (by rw [h]; rfl)
  · split
    · rename_i h
      rcases h with h | h
      · exact absurd h hd
      · exact List.mem_append_left _ (List.mem_of_mem_getLast? (by rw [h]; rfl))
    · simp

theorem path_in_print {r : Ref} {x : Char} (h : x ∈ r.model.path) : x ∈ r.print := by
  unfold Ref.print
  have h1 : x ∈ r.model.print := by
    unfold ModelRef.ModelPath.print
    split
    · exact h
    · exact h
    · exact List.mem_append_left _ h
  cases r.lora with
  | none => exact h1
  | some l => exact List.mem_append_left _ h1

theorem print_moved {r : Ref} {p : Str} {x : Char} (h : x ∈ ({ r with model := { r.model with path := p } } : Ref).print) : x ∈ p ∨ x ∈ r.print := by
  unfold Ref.print ModelRef.ModelPath.print at *
  obtain ⟨⟨q, v⟩, l, o⟩ := r
  simp only at h ⊢
  have hv : v = none ∨ v = some [] ∨ ∃ a b, v = some (a :: b) := by
    cases v with
    | none => exact Or.inl rfl
    | some v => cases v with
      | nil => exact Or.inr (Or.inl rfl)
      | cons a b => exact Or.inr (Or.inr ⟨a, b, rfl⟩)
  rcases hv with rfl | rfl | ⟨a, b, rfl⟩ <;> cases l <;> simp only [List.mem_append, List.mem_cons] at h ⊢ <;> tauto

theorem writable_moved {r : Ref} (hd : Ordinary dir) (h : Writable r) : Writable (toResult names dir r) := by
  unfold toResult
  split
  · rcases h with h | ⟨h1, h2, h3⟩
    · exact Or.inl h
    · have hp : ∀ x, x ∈ r.model.path → x ∈ r.print := fun x hx => path_in_print hx
      refine Or.inr ⟨⟨⟨⟨fun hx => ?_, fun hx => ?_⟩, h1.1.2⟩, h1.2.1, h1.2.2⟩, fun hx => ?_, fun hx => ?_⟩
      · rcases mem_join hx with e | e | e
        · exact hd.sep.1 e
        · exact h1.1.1.1 e
        · cases e
      · rcases mem_join hx with e | e | e
        · exact hd.sep.2 e
        · exact h1.1.1.2 e
        · cases e
      · rcases print_moved hx with e | e
        · rcases mem_join e with e | e | e
          · exact hd.quote e
          · exact h2 (hp _ e)
          · cases e
        · exact h2 e
      · rcases print_moved hx with e | e
        · rcases mem_join e with e | e | e
          · exact hd.blank e
          · exact h3 (hp _ e)
          · cases e
        · exact h3 e
  · exact h

theorem notWord_moved {r : Ref} (hd : Ordinary dir) (h : NotWord r) : NotWord (toResult names dir r) := by
  unfold toResult
  split
  · have hs : '/' ∈ ({ r with model := { r.model with path := pathJoin dir r.model.path } } : Ref).print := path_in_print (slash_join hd.some)
    exact ⟨fun e => by rw [e] at hs; exact absurd hs (by decide), fun e => by rw [e] at hs; exact absurd hs (by decide)⟩
  · exact h

variable {L : Lib K}

/-- What becomes of a configuration with nothing ambiguous in it. -/
theorem patched {c : Conf K} (hn : Normal c) (h : Clear names c) (hw : ∀ r ∈ c.vocabs, NotWord r) (hd : Ordinary dir) :
    (∃ u, Main.patchedConf L names dir c = .ok (c.withRefs (toResult names dir), u) ∧ ∀ n, n ∈ u ↔ n ∈ names ∧ ∃ r ∈ c.refs, r.model.path = n) ∧
    ∀ full, read L (dump full (c.withRefs (toResult names dir))) = .ok (c.withRefs (toResult names dir)) := by
  have h2 : ∀ full, read L (dump full (c.withRefs (toResult names dir))) = .ok (c.withRefs (toResult names dir)) := by
    intro full
    refine conf_again full (normal_with hn) ?_ ?_
    · intro r hr
      rw [refs_with] at hr
      obtain ⟨r', hr', rfl⟩ := List.mem_map.1 hr
      exact writable_moved hd (h.refs r' hr')
    · intro r hr
      rw [vocabs_with] at hr
      obtain ⟨r', hr', rfl⟩ := List.mem_map.1 hr
      exact notWord_moved hd (hw r' hr')
  obtain ⟨u, hu, hu'⟩ := goes_conf (dir := dir) h
  refine ⟨⟨u, ?_, fun n => ?_⟩, h2⟩
  · unfold Main.patchedConf
    rw [hu]
    simp only [h2]
  · rw [hu' n]
    simp only [List.mem_map]


end

end Verif.Document

namespace Verif.Main

open Verif.ModelRef (Str Ref NoSep)
open Verif.Document
open Verif.MultiMerge (pathJoin Name MTask Merging Disk makeTasks)
open Verif.CommandLine (Line Enough Called Event valuesOf marksOf)

variable {K D E : Type}

/-! ## What is claimed about recipes -/

/-- A document of a recipe: a configuration, with a name or without one. -/
structure NamedSays (L : Lib K) (d : List (Str × Doc K)) (e : Name × Conf K) : Prop where
  name : Maybe Text (d.lookup cs!"name") e.1
  conf : ConfSays L d e.2
  tokens : PlainTokens L d

/-- The documents of a recipe. -/
def RecipeSays (L : Lib K) (ds : List (Doc K)) (es : List (Name × Conf K)) : Prop := List.Forall₂ (fun d e => ∃ x, d = .dict x ∧ NamedSays L x e) ds es

/-- The merge `n` refers to the merge `m`: `m` has a name, and that name is the path of a model somewhere in the configuration of `n`. -/
def Refers (es : List (Name × Conf K)) (m n : Name) : Prop := m ∈ es.map Prod.fst ∧ ∃ s c r, m = some s ∧ (n, c) ∈ es ∧ r ∈ c.refs ∧ r.model.path = s

/-- A recipe in which only references look like references to merges. -/
structure ClearRecipe (es : List (Name × Conf K)) : Prop where
  clear : ∀ e ∈ es, Clear (es.filterMap Prod.fst) e.2
  vocabs : ∀ e ∈ es, ∀ r ∈ e.2.vocabs, NotWord r

/-- Where the result of a merge goes: a merge with a name to the directory of that name, the one without to the path given for it. -/
def placeOf (dir out : Str) : Name → Str
  | none => out
  | some n => pathJoin dir n

/-- What a merge reads: the configuration as it is, with references to merges replaced by their places. -/
def located (es : List (Name × Conf K)) (dir : Str) (c : Conf K) : Conf K := c.withRefs (toResult (es.filterMap Prod.fst) dir)

/-- What a recipe means: the result of a merge is what merging gives with the results of the merges it refers to in their places, and everything that is no result as it was. -/
inductive Result (es : List (Name × Conf K)) (dir out : Str) (merging : Merging (Conf K) D E) (disk₀ : Disk D) : Name → D → Prop
  | mk (n : Name) (c : Conf K) (disk : Disk D) (d : D) : (n, c) ∈ es → (∀ p, (∀ m ∈ es.map Prod.fst, p ≠ placeOf dir out m) → disk p = disk₀ p) →
      (∀ m, Refers es m n → disk (placeOf dir out m) ≠ none) → (∀ m, Refers es m n → ∀ d', disk (placeOf dir out m) = some d' → Result es dir out merging disk₀ m d') →
      merging (located es dir c) disk none = (some d, none) → Result es dir out merging disk₀ n d

/-- Merging reads only what the configuration refers to. -/
def ReadsReferred (es : List (Name × Conf K)) (dir out : Str) (merging : Merging (Conf K) D E) : Prop := ∀ n c, (n, c) ∈ es → ∀ disk disk' old,
  (∀ p, (∀ m ∈ es.map Prod.fst, p = placeOf dir out m → Refers es m n) → disk p = disk' p) → merging (located es dir c) disk old = merging (located es dir c) disk' old

/-- What may be in the place of a result beforehand: nothing; the result, which is recognised and kept; or leftovers that are not recognised and do not disturb. -/
def StartsClean (es : List (Name × Conf K)) (dir out : Str) (merging : Merging (Conf K) D E) (disk₀ : Disk D) (lazy : Bool) (present : D → Bool) : Prop :=
  ∀ n c, (n, c) ∈ es → ∀ d, disk₀ (placeOf dir out n) = some d → (lazy = true ∧ present d = true ∧ Result es dir out merging disk₀ n d) ∨
    ((lazy = true → present d = false) ∧ ∀ disk, merging (located es dir c) disk (some d) = merging (located es dir c) disk none)

/-- The directory for intermediate results, with its letter. -/
def whereOf (es : List Event) : Option Str := (valuesOf { shortened cs!"intermediate_dir" cs!"intermediate-dir" cs!"-I" with required := true } es).getLast?

/-- The path for the merge without a name; an empty one is none. -/
def finalOf (es : List Event) : Option Str := ((valuesOf (one cs!"out_path" cs!"out-path") es).getLast?).filter (fun o => decide (o ≠ []))

/-- Are results that are there kept?  Yes, unless the line says no. -/
def keepsOf (es : List Event) : Bool := (marksOf (yesNo cs!"lazy" cs!"lazy") es).getLast?.getD true

/-! ## The documents -/

theorem lookup_without {d : List (Str × Doc K)} {k n : Str} (h : k ≠ n) : (d.filter (fun e => decide (e.1 ≠ n))).lookup k = d.lookup k := by
  induction d with
  | nil => rfl
  | cons e d ih =>
    obtain ⟨a, b⟩ := e
    rw [List.filter_cons]
    by_cases ha : a = n
    · subst ha
      simp only [ne_eq, not_true_eq_false, decide_false, Bool.false_eq_true, if_false]
      rw [ih, List.lookup_cons]
      have : (k == a) = false := by simpa using h
      rw [this]
    · simp only [ne_eq, ha, not_false_eq_true, decide_true, if_true, List.lookup_cons, ih]

theorem named_read {L : Lib K} {x : List (Str × Doc K)} {e : Name × Conf K} (h : NamedSays L x e) : readNamed L (.dict x) = .ok e := by
  obtain ⟨n, c⟩ := e
  have hr : Document.read L (.dict (x.filter (fun e => decide (e.1 ≠ cs!"name")))) = .ok c := by
    rw [C130_unknown_keys (d' := x)]
    · exact C130_accepts h.tokens h.conf
    · intro k hk
      refine lookup_without ?_
      rintro rfl
      revert hk
      decide
  unfold readNamed
  have hn := h.name
  simp only at hn
  simp only
  generalize hv : x.lookup cs!"name" = v at hn
  cases hn with
  | missing => simp only [hr]
  | null => simp only [hr]
  | given _ ht =>
    cases ht with
    | mk s => simp only [hr]

theorem recipe_read {L : Lib K} {ds : List (Doc K)} {es : List (Name × Conf K)} (h : RecipeSays L ds es) : readAll L ds = .ok es := by
  induction h with
  | nil => rfl
  | cons hd _ ih =>
    obtain ⟨x, rfl, hx⟩ := hd
    unfold readAll
    rw [named_read hx]
    simp only
    rw [ih]

theorem recipe_normal {L : Lib K} {ds : List (Doc K)} {es : List (Name × Conf K)} (h : RecipeSays L ds es) : ∀ e ∈ es, Normal e.2 := by
  induction h with
  | nil => simp
  | cons hd _ ih =>
    obtain ⟨x, rfl, hx⟩ := hd
    intro e he
    rcases List.mem_cons.1 he with rfl | he
    · exact read_normal (C130_accepts hx.tokens hx.conf)
    · exact ih e he

/-! ## The tasks -/

theorem patchAll_map {L : Lib K} {names : List Str} {dir : Str} {f : Conf K → Conf K} {u : Name × Conf K → List Str} {es : List (Name × Conf K)}
    (h : ∀ e ∈ es, patchedConf L names dir e.2 = .ok (f e.2, u e)) : patchAll L names dir es = .ok (es.map (fun e => (e.1, f e.2, u e))) := by
  induction es with
  | nil => rfl
  | cons e es ih =>
    unfold patchAll
    rw [h e List.mem_cons_self]
    simp only
    rw [ih (fun x hx => h x (List.mem_cons_of_mem _ hx))]
    rfl

theorem entry_iff {f : Conf K → Conf K} {u : Name × Conf K → List Str} {es : List (Name × Conf K)} (hn : (es.map Prod.fst).Nodup) (n : Name) (r : Conf K × List Str) :
    entry (es.map (fun e => (e.1, f e.2, u e))) n = some r ↔ ∃ c, (n, c) ∈ es ∧ r = (f c, u (n, c)) := by
  unfold entry
  induction es with
  | nil => simp
  | cons e es ih =>
    obtain ⟨m, c⟩ := e
    rw [List.map_cons, List.nodup_cons] at hn
    rw [List.map_cons, List.find?_cons]
    by_cases hm : m = n
    · subst hm
      simp only [decide_true, Option.map_some, Option.some.injEq, List.mem_cons, Prod.mk.injEq, true_and]
      constructor
      · rintro rfl
        exact ⟨c, Or.inl rfl, rfl⟩
      · rintro ⟨c', h | h, rfl⟩
        · rw [h]
        · exact absurd (List.mem_map.2 ⟨_, h, rfl⟩) hn.1
    · simp only [hm, decide_false, ih hn.2]
      constructor
      · rintro ⟨c', h, rfl⟩
        exact ⟨c', List.mem_cons_of_mem _ h, rfl⟩
      · rintro ⟨c', h, rfl⟩
        rcases List.mem_cons.1 h with h | h
        · cases h; exact absurd rfl hm
        · exact ⟨c', h, rfl⟩

theorem place_eq (dir out : Str) : MultiMerge.outPathOf dir out = placeOf dir out := by
  funext n
  cases n <;> rfl

/-- The tasks are made from the configurations with references replaced, and the merges they refer to. -/
theorem tasks_made {L : Lib K} {ds : List (Doc K)} {es : List (Name × Conf K)} {dir : Str} (hds : RecipeSays L ds es) (hn : (es.map Prod.fst).Nodup) (hc : ClearRecipe es) (hd : Ordinary dir) (out : Option Str) :
    ∃ (config : Name → Option (Doc K)) (deps : Name → List Name),
      multiTasks L ds dir out = (match makeTasks config deps (es.map Prod.fst) dir (out.filter (fun o => decide (o ≠ []))) with
        | .error e => .error (.recipe e)
        | .ok ts => .ok ts) ∧
      (∀ n x, config n = some x ↔ ∃ c, (n, c) ∈ es ∧ x = dump false (located es dir c)) ∧ (∀ m n, m ∈ deps n ↔ Refers es m n) ∧
      ∀ n c, (n, c) ∈ es → Document.read L (dump false (located es dir c)) = .ok (located es dir c) := by
  have hp : ∀ e, ∃ u, e ∈ es → patchedConf L (es.filterMap Prod.fst) dir e.2 = .ok (located es dir e.2, u) ∧ ∀ n, n ∈ u ↔ n ∈ es.filterMap Prod.fst ∧ ∃ r ∈ e.2.refs, r.model.path = n := by
    intro e
    by_cases he : e ∈ es
    · obtain ⟨u, hu, hu'⟩ := (patched (L := L) (recipe_normal hds e he) (hc.clear e he) (hc.vocabs e he) hd).1
      exact ⟨u, fun _ => ⟨hu, hu'⟩⟩
    · exact ⟨[], fun h => absurd h he⟩
  choose u hu using hp
  have hall := patchAll_map (f := located es dir) (u := u) (fun e he => (hu e he).1)
  have hcol : MultiMerge.collect [] es = .ok es := by
    have := (MultiMerge.collect_spec es [] (by simp)).1 (by simpa using hn)
    simpa using this
  refine ⟨fun n => (entry (es.map (fun e => (e.1, located es dir e.2, u e))) n).map (fun r => dump false r.1),
    fun n => ((entry (es.map (fun e => (e.1, located es dir e.2, u e))) n).map (fun r => r.2.dedup.map some)).getD [], ?_, ?_, ?_, fun n c h => (patched (L := L) (recipe_normal hds _ h) (hc.clear _ h) (hc.vocabs _ h) hd).2 false⟩
  · unfold multiTasks
    rw [recipe_read hds]
    simp only
    rw [hcol]
    simp only
    rw [hall]
    simp only [List.map_map]
    rfl
  · intro n x
    simp only [Option.map_eq_some_iff, entry_iff hn]
    constructor
    · rintro ⟨r, ⟨c, h, rfl⟩, rfl⟩
      exact ⟨c, h, rfl⟩
    · rintro ⟨c, h, rfl⟩
      exact ⟨_, ⟨c, h, rfl⟩, rfl⟩
  · intro m n
    simp only
    constructor
    · intro hm
      cases he : entry (es.map (fun e => (e.1, located es dir e.2, u e))) n with
      | none => rw [he] at hm; cases hm
      | some r =>
        rw [he] at hm
        obtain ⟨c, hc', rfl⟩ := (entry_iff hn n r).1 he
        simp only [Option.map_some, Option.getD_some, List.mem_map, List.mem_dedup] at hm
        obtain ⟨s, hs, rfl⟩ := hm
        obtain ⟨h1, r, h2, h3⟩ := ((hu _ hc').2 s).1 hs
        refine ⟨?_, s, c, r, rfl, hc', h2, h3⟩
        obtain ⟨e, he, h⟩ := List.mem_filterMap.1 h1
        exact List.mem_map.2 ⟨e, he, h⟩
    · rintro ⟨h1, s, c, r, rfl, hc', h2, h3⟩
      rw [(entry_iff (f := located es dir) (u := u) hn n _).2 ⟨c, hc', rfl⟩]
      simp only [Option.map_some, Option.getD_some, List.mem_map, List.mem_dedup]
      refine ⟨s, ((hu _ hc').2 s).2 ⟨?_, r, h2, h3⟩, rfl⟩
      obtain ⟨e, he, h⟩ := List.mem_map.1 h1
      exact List.mem_filterMap.2 ⟨e, he, h⟩

section
variable {L : Lib K} {es : List (Name × Conf K)} {dir out : Str} {merging : Merging (Conf K) D E} {disk₀ : Disk D} {config : Name → Option (Doc K)} {deps : Name → List Name}

theorem text_merging {c : Conf K} (h : Document.read L (dump false c) = .ok c) (disk : Disk D) (old : Option D) :
    fromText L merging (dump false c) disk old = ((merging c disk old).1, (merging c disk old).2.map .inr) := by
  unfold fromText
  rw [h]

theorem text_done {c : Conf K} (h : Document.read L (dump false c) = .ok c) (disk : Disk D) (old : Option D) (d : D) :
    fromText L merging (dump false c) disk old = (some d, none) ↔ merging c disk old = (some d, none) := by
  rw [text_merging h]
  generalize merging c disk old = r
  obtain ⟨a, b⟩ := r
  cases b <;> simp

theorem result_iff (hcfg : ∀ n x, config n = some x ↔ ∃ c, (n, c) ∈ es ∧ x = dump false (located es dir c)) (hdeps : ∀ m n, m ∈ deps n ↔ Refers es m n)
    (hread : ∀ n c, (n, c) ∈ es → Document.read L (dump false (located es dir c)) = .ok (located es dir c)) (n : Name) (d : D) :
    MultiMerge.Means config deps (es.map Prod.fst) (placeOf dir out) (fromText L merging) disk₀ n d ↔ Result es dir out merging disk₀ n d := by
  constructor
  · intro h
    induction h with
    | mk n x disk d hx hp hs _ hm ih =>
      obtain ⟨c, hc, rfl⟩ := (hcfg n x).1 hx
      exact .mk n c disk d hc hp (fun m hm => hs m ((hdeps m n).2 hm)) (fun m hm d' hd' => ih m ((hdeps m n).2 hm) d' hd') ((text_done (hread n c hc) disk none d).1 hm)
  · intro h
    induction h with
    | mk n c disk d hc hp hs _ hm ih =>
      exact .mk n _ disk d ((hcfg n _).2 ⟨c, hc, rfl⟩) hp (fun m hm => hs m ((hdeps m n).1 hm)) (fun m hm d' hd' => ih m ((hdeps m n).1 hm) d' hd') ((text_done (hread n c hc) disk none d).2 hm)

end

/-! ## The command -/

theorem multi_mem : CommandLine.multi ∈ CommandLine.commands := by simp [CommandLine.commands]

theorem multi_options {es : List Event} {args : List Str} {k : CommandLine.Call} (hk : Called CommandLine.multi es args k) :
    wordOf k cs!"intermediate_dir" = whereOf es ∧ (wordOf k cs!"out_path").filter (fun o => decide (o ≠ [])) = finalOf es ∧ flagOf k cs!"lazy" true = keepsOf es :=
  ⟨wordOf_called multi_mem hk (o := { shortened cs!"intermediate_dir" cs!"intermediate-dir" cs!"-I" with required := true }) (by decide +kernel) rfl,
   congrArg (Option.filter _) (wordOf_called multi_mem hk (o := one cs!"out_path" cs!"out-path") (by decide +kernel) rfl),
   flagOf_called multi_mem hk (o := yesNo cs!"lazy" cs!"lazy") (by decide +kernel) rfl _⟩

/-- Reading the line and the file. -/
theorem multi_started (W : MultiWorld K) {line : List Str} (l : Line CommandLine.multi.opts line) {k : CommandLine.Call} (hk : Enough CommandLine.multi l.events l.args)
    (hk' : Called CommandLine.multi l.events l.args k) {F text : Str} {ds : List (Doc K)} (hargs : l.args = [F]) (hfile : W.file F = some text) (hyaml : W.yamlAll text = some ds) :
    multiMain W line = (match multiTasks W.lib ds ((whereOf l.events).getD []) (wordOf k cs!"out_path") with
      | .error e => .error e
      | .ok ts => .ok ⟨ts, keepsOf l.events, k.merge⟩) := by
  obtain ⟨o1, -, o3⟩ := multi_options hk'
  have hF : argument k cs!"config_file" = F := by
    unfold argument
    rw [hk'.args, hargs]
    rfl
  unfold multiMain
  rw [(CommandLine.C128_call multi_mem l k).2 ⟨hk, hk'⟩]
  simp only
  rw [hF, hfile]
  simp only
  rw [hyaml, o1, o3]
  rfl

/-- **C144** Two merges with the same name (or two without one) are refused. -/
theorem C144_same_name (W : MultiWorld K) {line : List Str} (l : Line CommandLine.multi.opts line) {k : CommandLine.Call} (hk : Enough CommandLine.multi l.events l.args)
    (hk' : Called CommandLine.multi l.events l.args k) {F text : Str} {ds : List (Doc K)} (hargs : l.args = [F]) (hfile : W.file F = some text) (hyaml : W.yamlAll text = some ds)
    {es : List (Name × Conf K)} (hds : RecipeSays W.lib ds es) (hn : ¬ (es.map Prod.fst).Nodup) : multiMain W line = .error (.recipe .duplicate) := by
  have hcol : MultiMerge.collect [] es = .error .duplicate := (MultiMerge.collect_spec es [] (by simp)).2 (by simpa using hn)
  rw [multi_started W l hk hk' hargs hfile hyaml]
  unfold multiTasks
  rw [recipe_read hds]
  simp only
  rw [hcol]

/-- **C144** What a command line leads to, for a recipe in which only references look like references to merges: a merge without a name needs a path; merges that refer to each other in a circle are refused;
otherwise there is one task for each merge, and executing them - in whatever order the executor takes them, with `lazy` unless the line says no, and with the options on the line - ends without an
exception exactly if all merges have a result, leaves the results in their places, and changes nothing else. -/
theorem C144_main (W : MultiWorld K) {line : List Str} (l : Line CommandLine.multi.opts line) {k : CommandLine.Call} (hk : Enough CommandLine.multi l.events l.args)
    (hk' : Called CommandLine.multi l.events l.args k) {F text dir : Str} {ds : List (Doc K)} (hargs : l.args = [F]) (hfile : W.file F = some text) (hyaml : W.yamlAll text = some ds)
    (hdir : whereOf l.events = some dir) (hord : Ordinary dir) {es : List (Name × Conf K)} (hds : RecipeSays W.lib ds es) (hn : (es.map Prod.fst).Nodup) (hc : ClearRecipe es) :
    (none ∈ es.map Prod.fst → finalOf l.events = none → multiMain W line = .error (.recipe .usage)) ∧
    ((none ∈ es.map Prod.fst → finalOf l.events ≠ none) → (∃ n ∈ es.map Prod.fst, Relation.TransGen (Refers es) n n) → multiMain W line = .error (.recipe .circular)) ∧
    ((none ∈ es.map Prod.fst → finalOf l.events ≠ none) → (∀ n ∈ es.map Prod.fst, ¬ Relation.TransGen (Refers es) n n) → ∃ r, multiMain W line = .ok r ∧
      r.tasks.map Prod.fst = es.map Prod.fst ∧ r.lazy = keepsOf l.events ∧ r.options = k.merge ∧
      ∀ [DecidableEq (MTask (Doc K))] (pop : ∀ n, Graph.PopOracle n) (merging : Merging (Conf K) D E) (disk₀ : Disk D) (present : D → Bool),
        let out := (finalOf l.events).getD []
        let done := MultiMerge.executeAll r.lazy present (fromText W.lib merging) disk₀ (MultiMerge.order r.tasks pop)
        (∀ m ∈ es.map Prod.fst, ∀ n ∈ es.map Prod.fst, placeOf dir out m = placeOf dir out n → m = n) → ReadsReferred es dir out merging → MultiMerge.GivesOrRaises merging →
        StartsClean es dir out merging disk₀ r.lazy present →
        (done.2 = none ↔ ∀ n ∈ es.map Prod.fst, ∃ d, Result es dir out merging disk₀ n d) ∧
        (done.2 = none → ∀ n ∈ es.map Prod.fst, ∀ d, done.1 (placeOf dir out n) = some d ↔ Result es dir out merging disk₀ n d) ∧
        ∀ p, (∀ m ∈ es.map Prod.fst, p ≠ placeOf dir out m) → done.1 p = disk₀ p) := by
  obtain ⟨-, o2, -⟩ := multi_options hk'
  rw [multi_started W l hk hk' hargs hfile hyaml, hdir, Option.getD_some]
  obtain ⟨config, deps, h1, h2, h3, h4⟩ := tasks_made hds hn hc hord (wordOf k cs!"out_path")
  rw [o2] at h1
  rw [h1]
  have hcfg : ∀ n ∈ es.map Prod.fst, (config n).isSome = true := by
    intro n hn'
    obtain ⟨e, he, rfl⟩ := List.mem_map.1 hn'
    rw [(h2 e.1 _).2 ⟨e.2, he, rfl⟩]
    rfl
  have hclosed : ∀ n ∈ es.map Prod.fst, ∀ d ∈ deps n, d ∈ es.map Prod.fst := fun n _ d hd => ((h3 d n).1 hd).1
  have hrel : MultiMerge.RefersTo deps = Refers es := by
    funext m n
    exact propext (h3 m n)
  refine ⟨fun hnone hf => ?_, fun hf hcyc => ?_, fun hf hacyc => ?_⟩
  · rw [hf]
    unfold makeTasks
    simp only
    rw [if_pos hnone]
  · have := (MultiMerge.C55_tasks config deps (es.map Prod.fst) dir (finalOf l.events) hclosed hcfg (fun h => Option.isSome_iff_ne_none.2 (hf h))).1 (by rw [hrel]; exact hcyc)
    rw [this]
  · have hout : none ∈ es.map Prod.fst → (finalOf l.events).isSome = true := fun h => Option.isSome_iff_ne_none.2 (hf h)
    obtain ⟨ts, ht, ht1, -⟩ := (MultiMerge.C55_tasks config deps (es.map Prod.fst) dir (finalOf l.events) hclosed hcfg hout).2 (by rw [hrel]; exact hacyc)
    rw [ht]
    refine ⟨_, rfl, ht1, rfl, rfl, ?_⟩
    intro _ pop merging disk₀ present
    simp only
    intro hinj hreads hgives hstart
    have hres := result_iff (L := W.lib) (dir := dir) (out := (finalOf l.events).getD []) (merging := merging) (disk₀ := disk₀) h2 h3 h4
    have key := MultiMerge.C122_nested config deps (es.map Prod.fst) dir (finalOf l.events) ts hclosed hcfg hout ht pop (fromText W.lib merging) disk₀ (keepsOf l.events) present
    simp only [place_eq] at key
    have key := key hinj ?_ ?_ ?_
    · simp only [hres] at key
      exact key
    · intro n hn' x hx disk disk' old hsame
      obtain ⟨c, hce, rfl⟩ := (h2 n x).1 hx
      rw [text_merging (h4 n c hce), text_merging (h4 n c hce), hreads n c hce disk disk' old (fun p hp => hsame p (fun m hm e => (h3 m n).2 (hp m hm e)))]
    · intro x disk old hnone
      unfold fromText at hnone ⊢
      cases hr : Document.read W.lib x with
      | error e => rw [hr] at hnone; cases hnone
      | ok c =>
        rw [hr] at hnone
        simp only [Option.map_eq_none_iff] at hnone
        exact hgives c disk old hnone
    · intro n hn'
      obtain ⟨e, he, rfl⟩ := List.mem_map.1 hn'
      cases hd : disk₀ (placeOf dir ((finalOf l.events).getD []) e.1) with
      | none => trivial
      | some d =>
        rcases hstart e.1 e.2 he d hd with ⟨g1, g2, g3⟩ | ⟨g1, g2⟩
        · exact Or.inl ⟨g1, g2, (hres e.1 d).2 g3⟩
        · refine Or.inr ⟨g1, fun x disk hx => ?_⟩
          obtain ⟨c, hce, rfl⟩ := (h2 e.1 x).1 hx
          have hec : c = e.2 := by
            have := (h2 e.1 (dump false (located es dir c))).2 ⟨c, hce, rfl⟩
            have hinj' : ∀ a b, (e.1, a) ∈ es → (e.1, b) ∈ es → a = b := by
              intro a b ha hb
              have := List.inj_on_of_nodup_map hn ha hb rfl
              exact (Prod.mk.inj this).2
            exact hinj' c e.2 hce he
          subst hec
          rw [text_merging (h4 e.1 e.2 he), text_merging (h4 e.1 e.2 he), g2 disk]

/-! ## Words that look like references -/

section
variable {names : List Str} {dir : Str}

theorem dict_error {d : List (Str × Doc K)} {k : Str} {v : Doc K} {e : MultiMerge.Err} (h : (k, v) ∈ d) (hv : relocate names dir v = .error e) : ∃ e', relocateDict names dir d = .error e' := by
  induction d with
  | nil => cases h
  | cons x d ih =>
    obtain ⟨k', v'⟩ := x
    unfold relocateDict
    rcases List.mem_cons.1 h with h | h
    · cases h
      rw [hv]
      exact ⟨_, rfl⟩
    · obtain ⟨e', he'⟩ := ih h
      cases relocate names dir v' with
      | error e'' => exact ⟨_, rfl⟩
      | ok a =>
        simp only
        rw [he']
        exact ⟨_, rfl⟩

theorem dict_uses {d : List (Str × Doc K)} {k : Str} {v : Doc K} {a : Doc K × List Str} {r : List (Str × Doc K) × List Str} (h : (k, v) ∈ d) (hv : relocate names dir v = .ok a)
    (hr : relocateDict names dir d = .ok r) : ∀ n ∈ a.2, n ∈ r.2 := by
  induction d generalizing r with
  | nil => cases h
  | cons x d ih =>
    obtain ⟨k', v'⟩ := x
    unfold relocateDict at hr
    cases h1 : relocate names dir v' with
    | error e => rw [h1] at hr; cases hr
    | ok b =>
      rw [h1] at hr
      simp only at hr
      cases h2 : relocateDict names dir d with
      | error e => rw [h2] at hr; cases hr
      | ok c =>
        rw [h2] at hr
        cases hr
        intro n hn
        rcases List.mem_cons.1 h with h | h
        · cases h
          rw [hv] at h1
          cases h1
          exact List.mem_append_left _ hn
        · exact List.mem_append_right _ (ih h h2 n hn)

mutual
theorem uses_names : ∀ (v : Doc K) (a : Doc K × List Str), relocate names dir v = .ok a → ∀ n ∈ a.2, n ∈ names
  | .null, a, h => by unfold relocate at h; cases h; simp
  | .bool b, a, h => by unfold relocate at h; cases h; simp
  | .int b, a, h => by unfold relocate at h; cases h; simp
  | .float b, a, h => by unfold relocate at h; cases h; simp
  | .str s, a, h => by
    unfold relocate relocateWord at h
    split at h
    · cases h
    · split at h
      · rename_i hm
        cases h
        simpa using hm
      · cases h; simp
  | .list l, a, h => by
    unfold relocate at h
    split at h
    · cases h
    · rename_i r hr
      cases h
      exact uses_names_list l r hr
  | .dict d, a, h => by
    unfold relocate at h
    split at h
    · unfold relocateRef at h
      split at h
      · split at h
        · split at h
          · rename_i hm
            cases h
            simpa using hm
          · cases h; simp
        · cases h
      · cases h
    · split at h
      · cases h
      · rename_i r hr
        cases h
        exact uses_names_dict d r hr
theorem uses_names_list : ∀ (l : List (Doc K)) (a : List (Doc K) × List Str), relocateList names dir l = .ok a → ∀ n ∈ a.2, n ∈ names
  | [], a, h => by unfold relocateList at h; cases h; simp
  | v :: l, a, h => by
    unfold relocateList at h
    split at h
    · cases h
    · rename_i b hb
      split at h
      · cases h
      · rename_i c hc
        cases h
        intro n hn
        rcases List.mem_append.1 hn with hn | hn
        · exact uses_names v b hb n hn
        · exact uses_names_list l c hc n hn
theorem uses_names_dict : ∀ (l : List (Str × Doc K)) (a : List (Str × Doc K) × List Str), relocateDict names dir l = .ok a → ∀ n ∈ a.2, n ∈ names
  | [], a, h => by unfold relocateDict at h; cases h; simp
  | (k, v) :: l, a, h => by
    unfold relocateDict at h
    split at h
    · cases h
    · rename_i b hb
      split at h
      · cases h
      · rename_i c hc
        cases h
        intro n hn
        rcases List.mem_append.1 hn with hn | hn
        · exact uses_names v b hb n hn
        · exact uses_names_dict l c hc n hn
end

/-- The fields of a configuration, written out. -/
theorem dump_fields (c : Conf K) : ∃ d, dump true c = .dict d ∧ isRefDict d = false ∧ (cs!"merge_method", .str c.mergeMethod) ∈ d ∧ ∀ t, c.chatTemplate = some t → (cs!"chat_template", .str t) ∈ d := by
  refine ⟨_, rfl, ?_, ?_, ?_⟩
  · unfold isRefDict
    rw [Bool.and_eq_false_iff]
    refine Or.inr (decide_eq_false ?_)
    refine no_lora_append (no_lora_append (no_lora_append (no_lora_append (no_lora_append (no_lora_append (no_lora_append (no_lora_append (no_lora_append (no_lora_append
      (no_lora (by decide)) (no_lora (by decide))) (no_lora (by decide))) (no_lora_cons (by decide) (by simp))) (no_lora (by decide))) (no_lora (by decide))) (no_lora (by decide))) (no_lora (by decide))) (no_lora (by decide)))
      (no_lora (by decide))) (no_lora (by decide))
  · simp only [List.mem_append, List.mem_singleton]
    tauto
  · intro t ht
    rw [ht]
    simp only [List.mem_append, Document.field, List.mem_singleton]
    tauto

theorem patchAll_ok {L : Lib K} {es : List (Name × Conf K)} {rs : List (Name × Conf K × List Str)} (h : patchAll L names dir es = .ok rs) :
    List.Forall₂ (fun e r => r.1 = e.1 ∧ patchedConf L names dir e.2 = .ok r.2) es rs := by
  induction es generalizing rs with
  | nil => unfold patchAll at h; cases h; exact .nil
  | cons e es ih =>
    unfold patchAll at h
    split at h
    · cases h
    · rename_i r hr
      split at h
      · cases h
      · rename_i rs' hrs
        cases h
        exact .cons ⟨rfl, hr⟩ (ih hrs)

end

/-- What a successful start tells. -/
theorem tasks_from {L : Lib K} {ds : List (Doc K)} {es : List (Name × Conf K)} {dir : Str} (hds : RecipeSays L ds es) {out : Option Str} {ts : List (Name × MTask (Doc K))}
    (h : multiTasks L ds dir out = .ok ts) : (es.map Prod.fst).Nodup ∧ ∃ rs, patchAll L (es.filterMap Prod.fst) dir es = .ok rs ∧
      makeTasks (fun n => (entry rs n).map (fun r => dump false r.1)) (fun n => ((entry rs n).map (fun r => r.2.dedup.map some)).getD []) (rs.map Prod.fst) dir (out.filter (fun o => decide (o ≠ []))) = .ok ts := by
  unfold multiTasks at h
  rw [recipe_read hds] at h
  simp only at h
  by_cases hn : (es.map Prod.fst).Nodup
  · refine ⟨hn, ?_⟩
    have hcol : MultiMerge.collect [] es = .ok es := by
      have := (MultiMerge.collect_spec es [] (by simp)).1 (by simpa using hn)
      simpa using this
    rw [hcol] at h
    simp only at h
    split at h
    · cases h
    · rename_i rs hrs
      refine ⟨rs, hrs, ?_⟩
      split at h
      · cases h
      · rename_i ts' hts
        cases h
        exact hts
  · have hcol : MultiMerge.collect [] es = .error .duplicate := (MultiMerge.collect_spec es [] (by simp)).2 (by simpa using hn)
    rw [hcol] at h
    cases h

/-- **C144** Every text of a configuration is taken for a reference: one chat template that cannot be read as one - such as one with two `+` - makes the whole command fail, whatever merges there are. -/
theorem C144_template (W : MultiWorld K) {line : List Str} (l : Line CommandLine.multi.opts line) {k : CommandLine.Call} (hk : Enough CommandLine.multi l.events l.args)
    (hk' : Called CommandLine.multi l.events l.args k) {F text : Str} {ds : List (Doc K)} (hargs : l.args = [F]) (hfile : W.file F = some text) (hyaml : W.yamlAll text = some ds)
    {es : List (Name × Conf K)} (hds : RecipeSays W.lib ds es) {n : Name} {c : Conf K} (he : (n, c) ∈ es) {t : Str} (ht : c.chatTemplate = some t) {x : ModelRef.ParseError} (hx : ModelRef.parse t = .error x)
    (r : MultiRun K) : multiMain W line ≠ .ok r := by
  intro h
  rw [multi_started W l hk hk' hargs hfile hyaml] at h
  split at h
  · cases h
  · rename_i ts hts
    obtain ⟨-, rs, hrs, -⟩ := tasks_from hds hts
    obtain ⟨y, -, -, hp⟩ := Tok.forall₂_left (patchAll_ok hrs) _ he
    obtain ⟨d, h1, h2, -, h3⟩ := dump_fields c
    obtain ⟨e', he'⟩ := dict_error (names := es.filterMap Prod.fst) (dir := (whereOf l.events).getD []) (h3 t ht) (e := .badReference) (by unfold relocate relocateWord; rw [hx])
    unfold patchedConf at hp
    rw [h1] at hp
    unfold relocate at hp
    simp only [h2, Bool.false_eq_true, if_false, he'] at hp
    cases hp

/-- **C144** A merge that has the name of its own merge method is refused, as if it referred to itself. -/
theorem C144_own_method (W : MultiWorld K) {line : List Str} (l : Line CommandLine.multi.opts line) {k : CommandLine.Call} (hk : Enough CommandLine.multi l.events l.args)
    (hk' : Called CommandLine.multi l.events l.args k) {F text : Str} {ds : List (Doc K)} (hargs : l.args = [F]) (hfile : W.file F = some text) (hyaml : W.yamlAll text = some ds)
    {es : List (Name × Conf K)} (hds : RecipeSays W.lib ds es) {s : Str} {c : Conf K} (he : (some s, c) ∈ es) (hm : c.mergeMethod = s) (hs : NoSep s) (r : MultiRun K) : multiMain W line ≠ .ok r := by
  intro h
  rw [multi_started W l hk hk' hargs hfile hyaml] at h
  split at h
  · cases h
  · rename_i ts hts
    obtain ⟨hn, rs, hrs, hmk⟩ := tasks_from hds hts
    have hall := patchAll_ok hrs
    have hfst : rs.map Prod.fst = es.map Prod.fst := MultiMerge.forall₂_fst (hall.imp (fun _ _ h => h.1.symm))
    have hsn : s ∈ es.filterMap Prod.fst := List.mem_filterMap.2 ⟨_, he, rfl⟩
    obtain ⟨⟨y1, y2⟩, hy, hy1, hp⟩ := Tok.forall₂_left hall _ he
    simp only at hy1 hp
    subst hy1
    -- the method is taken for a reference
    have huse : s ∈ y2.2 := by
      obtain ⟨d, h1, h2, h3, -⟩ := dump_fields c
      unfold patchedConf at hp
      rw [h1] at hp
      unfold relocate at hp
      simp only [h2, Bool.false_eq_true, if_false] at hp
      cases hrd : relocateDict (es.filterMap Prod.fst) ((whereOf l.events).getD []) d with
      | error e => rw [hrd] at hp; cases hp
      | ok q =>
        rw [hrd] at hp
        simp only at hp
        split at hp
        · cases hp
        · cases hp
          have hparse : ModelRef.parse s = .ok ⟨⟨s, none⟩, none, none⟩ :=
            ModelRef.C24_parse_print ⟨⟨s, none⟩, none, none⟩ ⟨⟨hs, (by intro r hr; cases hr)⟩, (by intro l hl; cases hl), rfl⟩
          refine dict_uses h3 (a := (dumpRef ⟨⟨pathJoin ((whereOf l.events).getD []) s, none⟩, none, none⟩, [s])) ?_ hrd s (List.mem_singleton_self s)
          unfold relocate relocateWord
          rw [hm, hparse]
          simp only
          rw [if_pos hsn]
    have hnr : (rs.map Prod.fst).Nodup := by rw [hfst]; exact hn
    have hentry : ∀ n z, entry rs n = some z ↔ (n, z) ∈ rs := by
      intro n z
      unfold entry
      constructor
      · intro h
        obtain ⟨w, hw, rfl⟩ := Option.map_eq_some_iff.1 h
        have h1 := List.mem_of_find?_eq_some hw
        have h2 := List.find?_some hw
        simp only [decide_eq_true_eq] at h2
        subst h2
        exact h1
      · intro h
        cases hf : rs.find? (fun e => decide (e.1 = n)) with
        | none =>
          have := List.find?_eq_none.1 hf _ h
          simp at this
        | some w =>
          have h1 := List.mem_of_find?_eq_some hf
          have h2 := List.find?_some hf
          simp only [decide_eq_true_eq] at h2
          have := List.inj_on_of_nodup_map hnr h1 h h2
          rw [this]
          rfl
    have hcyc := (MultiMerge.C55_tasks (fun n => (entry rs n).map (fun r => dump false r.1)) (fun n => ((entry rs n).map (fun r => r.2.dedup.map some)).getD []) (rs.map Prod.fst)
      ((whereOf l.events).getD []) ((wordOf k cs!"out_path").filter (fun o => decide (o ≠ []))) ?_ ?_ ?_).1 ⟨some s, List.mem_map.2 ⟨_, hy, rfl⟩, Relation.TransGen.single ?_⟩
    · rw [hmk] at hcyc
      cases hcyc
    · intro n _ m hm'
      cases hen : entry rs n with
      | none => rw [hen] at hm'; cases hm'
      | some z =>
        rw [hen] at hm'
        simp only [Option.map_some, Option.getD_some, List.mem_map, List.mem_dedup] at hm'
        obtain ⟨q, hq, rfl⟩ := hm'
        obtain ⟨e, he', -, hpe⟩ := Tok.forall₂_right hall _ ((hentry n z).1 hen)
        have : q ∈ es.filterMap Prod.fst := by
          unfold patchedConf at hpe
          split at hpe
          · cases hpe
          · rename_i w hw
            split at hpe
            · cases hpe
            · cases hpe
              exact uses_names _ _ hw q hq
        rw [hfst]
        obtain ⟨e, he, h⟩ := List.mem_filterMap.1 this
        exact List.mem_map.2 ⟨e, he, h⟩
    · intro n hn'
      obtain ⟨z, hz, rfl⟩ := List.mem_map.1 hn'
      rw [(hentry z.1 z.2).2 hz]
      rfl
    · intro hnone
      by_contra hno
      have hno : (wordOf k cs!"out_path").filter (fun o => decide (o ≠ [])) = none := by
        exact Option.not_isSome_iff_eq_none.1 hno
      rw [hno] at hmk
      unfold makeTasks at hmk
      simp only at hmk
      rw [if_pos hnone] at hmk
      cases hmk
    · show some s ∈ ((entry rs (some s)).map (fun r => r.2.dedup.map some)).getD []
      rw [(hentry (some s) y2).2 hy]
      simpa using huse

/-! ## A case

A recipe of two merges: one named `first`, of two models; and one of its result and a third model. -/

/-- The two documents. -/
def twoDocs (template : Doc ℚ) : List (Doc ℚ) :=
  [.dict [(cs!"name", .str cs!"first"), (cs!"merge_method", .str cs!"linear"), (cs!"models", .list [.dict [(cs!"model", .str cs!"a")], .dict [(cs!"model", .str cs!"b")]])],
   .dict [(cs!"merge_method", .str cs!"linear"), (cs!"chat_template", template), (cs!"models", .list [.dict [(cs!"model", .str cs!"first")], .dict [(cs!"model", .str cs!"c")]])]]

/-- A model by its path. -/
def plainRef (s : Str) : Ref := ⟨⟨s, none⟩, none, none⟩

/-- The first configuration. -/
def firstConf : Conf ℚ := { mergeMethod := cs!"linear", models := some [⟨plainRef cs!"a", none⟩, ⟨plainRef cs!"b", none⟩] }

/-- The second configuration. -/
def lastConf (template : Option Str) : Conf ℚ := { mergeMethod := cs!"linear", models := some [⟨plainRef cs!"first", none⟩, ⟨plainRef cs!"c", none⟩], chatTemplate := template }

/-- The recipe. -/
def twoMerges (template : Option Str) : List (Name × Conf ℚ) := [(some cs!"first", firstConf), (none, lastConf template)]

theorem twoDocs_none (L : Lib ℚ) : RecipeSays L (twoDocs .null) (twoMerges none) := by
  refine .cons ⟨_, rfl, ?_, C130_reads (c := firstConf) rfl, .none rfl⟩ (.cons ⟨_, rfl, ?_, C130_reads (c := lastConf none) rfl, .none rfl⟩ .nil)
  · exact .given (by intro h; cases h) (.mk _)
  · exact .missing

theorem twoDocs_some (L : Lib ℚ) (t : Str) : RecipeSays L (twoDocs (.str t)) (twoMerges (some t)) := by
  refine .cons ⟨_, rfl, ?_, C130_reads (c := firstConf) rfl, .none rfl⟩ (.cons ⟨_, rfl, ?_, C130_reads (c := lastConf (some t)) rfl, .none rfl⟩ .nil)
  · exact .given (by intro h; cases h) (.mk _)
  · exact .missing

theorem writable_plain (s : Str) (h : '@' ∉ s ∧ '+' ∉ s) (h' : '"' ∉ s) (h'' : ' ' ∉ s) : Writable (plainRef s) :=
  Or.inr ⟨⟨⟨h, (by intro r hr; cases hr)⟩, (by intro l hl; cases hl), rfl⟩, h', h''⟩

theorem twoMerges_clear : ClearRecipe (twoMerges none) := by
  refine ⟨?_, ?_⟩
  · intro e he
    simp only [twoMerges, List.mem_cons, List.not_mem_nil, or_false] at he
    rcases he with rfl | rfl
    · refine ⟨?_, ?_, ?_⟩
      · intro r hr
        rw [show firstConf.refs = [plainRef cs!"a", plainRef cs!"b"] from rfl] at hr
        simp only [List.mem_cons, List.not_mem_nil, or_false] at hr
        rcases hr with rfl | rfl <;> exact writable_plain _ (by decide) (by decide) (by decide)
      · intro s hs
        rw [show firstConf.words = [cs!"linear"] from rfl] at hs
        rw [List.mem_singleton.1 hs]
        exact ⟨_, rfl, by decide⟩
      · intro ks hks
        rw [show firstConf.keys = [[], [], [], []] from rfl] at hks
        simp only [List.mem_cons, List.not_mem_nil, or_false, or_self] at hks
        rw [hks]
        simp
    · refine ⟨?_, ?_, ?_⟩
      · intro r hr
        rw [show (lastConf none).refs = [plainRef cs!"first", plainRef cs!"c"] from rfl] at hr
        simp only [List.mem_cons, List.not_mem_nil, or_false] at hr
        rcases hr with rfl | rfl <;> exact writable_plain _ (by decide) (by decide) (by decide)
      · intro s hs
        rw [show (lastConf none).words = [cs!"linear"] from rfl] at hs
        rw [List.mem_singleton.1 hs]
        exact ⟨_, rfl, by decide⟩
      · intro ks hks
        rw [show (lastConf none).keys = [[], [], [], []] from rfl] at hks
        simp only [List.mem_cons, List.not_mem_nil, or_false, or_self] at hks
        rw [hks]
        simp
  · intro e he r hr
    simp only [twoMerges, List.mem_cons, List.not_mem_nil, or_false] at he
    rcases he with rfl | rfl <;> cases hr

theorem twoMerges_refers (m n : Name) : Refers (twoMerges none) m n ↔ m = some cs!"first" ∧ n = none := by
  constructor
  · rintro ⟨hm, s, c, r, rfl, hc, hr, rfl⟩
    simp only [twoMerges, List.mem_cons, List.not_mem_nil, or_false, Prod.mk.injEq] at hc
    rcases hc with ⟨rfl, rfl⟩ | ⟨rfl, rfl⟩
    · rw [show firstConf.refs = [plainRef cs!"a", plainRef cs!"b"] from rfl] at hr
      simp only [List.mem_cons, List.not_mem_nil, or_false] at hr
      rcases hr with rfl | rfl <;> exact absurd hm (by decide)
    · rw [show (lastConf none).refs = [plainRef cs!"first", plainRef cs!"c"] from rfl] at hr
      simp only [List.mem_cons, List.not_mem_nil, or_false] at hr
      rcases hr with rfl | rfl
      · exact ⟨rfl, rfl⟩
      · exact absurd hm (by decide)
  · rintro ⟨rfl, rfl⟩
    exact ⟨by decide, _, lastConf none, plainRef cs!"first", rfl, by simp [twoMerges], List.mem_cons_self, rfl⟩

theorem twoMerges_straight (n : Name) : ¬ Relation.TransGen (Refers (twoMerges none)) n n := by
  intro h
  obtain ⟨x, hx, -⟩ := Relation.TransGen.head'_iff.1 h
  obtain ⟨y, -, hy⟩ := Relation.TransGen.tail'_iff.1 h
  rw [((twoMerges_refers _ _).1 hx).1] at hy
  exact absurd ((twoMerges_refers _ _).1 hy).2 (by decide)

/-- A line with a directory for the first result, given by its letter, and a path for the last. -/
def multiLine : Line CommandLine.multi.opts [cs!"r.yml", cs!"-I", cs!"/tmp/x", cs!"--out-path", cs!"out", cs!"--no-lazy"] where
  uses := [.plain cs!"r.yml", .marksNext [] { CommandLine.valued cs!"intermediate_dir" [cs!"-I"] with required := true } 'I' cs!"/tmp/x",
    .next (CommandLine.valued cs!"out_path") cs!"--out-path" cs!"out", .flag (CommandLine.toggle cs!"lazy") cs!"--no-lazy" false]
  after := none
  fits := by
    intro u hu
    simp only [List.mem_cons, List.not_mem_nil, or_false] at hu
    rcases hu with rfl | rfl | rfl | rfl
    · exact show ¬ _ by decide
    · exact ⟨(by intro e he; cases he), by decide +kernel, by decide +kernel, by decide +kernel, CommandLine.notLong_of (by decide +kernel)⟩
    · exact ⟨by decide +kernel, by decide +kernel, by decide +kernel, by decide +kernel⟩
    · exact ⟨by decide +kernel, by decide +kernel, by decide +kernel, by decide +kernel⟩
  written := by decide +kernel

/-- The file is there. -/
def multiWorld (L : Lib ℚ) (ds : List (Doc ℚ)) : MultiWorld ℚ where
  file s := if s = cs!"r.yml" then some cs!"text" else none
  yamlAll _ := some ds
  lib := L

theorem multi_called : ∃ k, Enough CommandLine.multi multiLine.events multiLine.args ∧ Called CommandLine.multi multiLine.events multiLine.args k := by
  have h : ∃ k, CommandLine.call CommandLine.multi [cs!"r.yml", cs!"-I", cs!"/tmp/x", cs!"--out-path", cs!"out", cs!"--no-lazy"] = .ok k := ⟨_, rfl⟩
  obtain ⟨k, hk⟩ := h
  exact ⟨k, (CommandLine.C128_call multi_mem multiLine k).1 hk⟩

theorem multiWorld_file (L : Lib ℚ) (ds : List (Doc ℚ)) : (multiWorld L ds).file cs!"r.yml" = some cs!"text" := by
  unfold multiWorld
  simp only [if_true]

/-- Merging that adds up numbers. -/
def adds : Merging (Conf ℚ) Nat Unit := fun c disk _ =>
  match c.refs.mapM (fun r => disk r.model.path) with
  | none => (none, some ())
  | some l => (some l.sum, none)

/-- Three models. -/
def threeModels : Disk Nat := fun p => if p = cs!"a" then some 1 else if p = cs!"b" then some 2 else if p = cs!"c" then some 10 else none

/-- C144 for this recipe: the command starts, executing the tasks ends well, and the results are in their places. -/
theorem C144_case (L : Lib ℚ) [DecidableEq (MTask (Doc ℚ))] (pop : ∀ n, Graph.PopOracle n) :
    ∃ r, multiMain (multiWorld L (twoDocs .null)) [cs!"r.yml", cs!"-I", cs!"/tmp/x", cs!"--out-path", cs!"out", cs!"--no-lazy"] = .ok r ∧ r.lazy = false ∧
      let done := MultiMerge.executeAll r.lazy (fun _ => true) (fromText L adds) threeModels (MultiMerge.order r.tasks pop)
      done.2 = none ∧ done.1 cs!"/tmp/x/first" = some 3 ∧ done.1 cs!"out" = some 13 ∧ done.1 cs!"a" = some 1 := by
  obtain ⟨k, h1, h2⟩ := multi_called
  obtain ⟨r, hr, -, hlazy, -, hmain⟩ := (C144_main (D := Nat) (E := Unit) (multiWorld L (twoDocs .null)) multiLine h1 h2 (F := cs!"r.yml") (by decide +kernel) (multiWorld_file L _) rfl (dir := cs!"/tmp/x") (by decide +kernel)
    ⟨by decide, ⟨by decide, by decide⟩, by decide, by decide⟩ (twoDocs_none L) (by decide) twoMerges_clear).2.2 (fun _ => by decide +kernel) (fun n _ => twoMerges_straight n)
  have hl : r.lazy = false := by rw [hlazy]; decide +kernel
  have hout : (finalOf multiLine.events).getD [] = cs!"out" := by decide +kernel
  refine ⟨r, hr, hl, ?_⟩
  have e1 : (located (twoMerges none) cs!"/tmp/x" firstConf).refs = [plainRef cs!"a", plainRef cs!"b"] := by rfl
  have e2 : (located (twoMerges none) cs!"/tmp/x" (lastConf none)).refs = [plainRef cs!"/tmp/x/first", plainRef cs!"c"] := by rfl
  have a1 : ∀ disk : Disk Nat, ∀ old, adds (located (twoMerges none) cs!"/tmp/x" firstConf) disk old =
      (match [plainRef cs!"a", plainRef cs!"b"].mapM (fun r => disk r.model.path) with
        | none => (none, some ())
        | some l => (some l.sum, none)) := fun disk old => by unfold adds; rw [e1]
  have a2 : ∀ disk : Disk Nat, ∀ old, adds (located (twoMerges none) cs!"/tmp/x" (lastConf none)) disk old =
      (match [plainRef cs!"/tmp/x/first", plainRef cs!"c"].mapM (fun r => disk r.model.path) with
        | none => (none, some ())
        | some l => (some l.sum, none)) := fun disk old => by unfold adds; rw [e2]
  have hnames : ∀ n, n ∈ (twoMerges none).map Prod.fst ↔ n = some cs!"first" ∨ n = none := by intro n; simp [twoMerges]
  have hfirst : Result (twoMerges none) cs!"/tmp/x" cs!"out" adds threeModels (some cs!"first") 3 := by
    refine .mk _ firstConf threeModels 3 (by simp [twoMerges]) (fun _ _ => rfl) ?_ ?_ ?_
    · intro m hm
      exact absurd ((twoMerges_refers _ _).1 hm).2 (by decide)
    · intro m hm
      exact absurd ((twoMerges_refers _ _).1 hm).2 (by decide)
    · rw [a1]
      decide
  have hlast : Result (twoMerges none) cs!"/tmp/x" cs!"out" adds threeModels none 13 := by
    refine .mk _ (lastConf none) (Function.update threeModels cs!"/tmp/x/first" (some 3)) 13 (by simp [twoMerges]) ?_ ?_ ?_ ?_
    · intro p hp
      rw [Function.update_of_ne]
      exact hp (some cs!"first") ((hnames _).2 (Or.inl rfl))
    · intro m hm
      rw [((twoMerges_refers _ _).1 hm).1]
      rw [show placeOf cs!"/tmp/x" cs!"out" (some cs!"first") = cs!"/tmp/x/first" from rfl, Function.update_self]
      simp
    · intro m hm d' hd'
      rw [((twoMerges_refers _ _).1 hm).1] at hd' ⊢
      rw [show placeOf cs!"/tmp/x" cs!"out" (some cs!"first") = cs!"/tmp/x/first" from rfl, Function.update_self] at hd'
      cases hd'
      exact hfirst
    · rw [a2]
      decide
  have key := hmain pop adds threeModels (fun _ => true)
  simp only [hout] at key
  have key := key (by
      intro m hm n hn
      rcases (hnames m).1 hm with rfl | rfl <;> rcases (hnames n).1 hn with rfl | rfl <;> decide) (by
      intro n c hc disk disk' old hsame
      simp only [twoMerges, List.mem_cons, List.not_mem_nil, or_false, Prod.mk.injEq] at hc
      have hplace : ∀ p m, m ∈ (twoMerges none).map Prod.fst → p = placeOf cs!"/tmp/x" cs!"out" m → p = cs!"/tmp/x/first" ∧ m = some cs!"first" ∨ p = cs!"out" := by
        intro p m hm hp
        rcases (hnames m).1 hm with rfl | rfl
        · exact Or.inl ⟨hp, rfl⟩
        · exact Or.inr hp
      rcases hc with ⟨rfl, rfl⟩ | ⟨rfl, rfl⟩
      · have h1 := hsame cs!"a" (fun m hm hp => by rcases hplace _ m hm hp with ⟨h, -⟩ | h <;> exact absurd h (by decide))
        have h2 := hsame cs!"b" (fun m hm hp => by rcases hplace _ m hm hp with ⟨h, -⟩ | h <;> exact absurd h (by decide))
        rw [a1, a1]
        simp only [plainRef, List.mapM_cons, List.mapM_nil, h1, h2]
      · have h1 := hsame cs!"/tmp/x/first" (fun m hm hp => by
          rcases hplace _ m hm hp with ⟨-, rfl⟩ | h
          · exact (twoMerges_refers _ _).2 ⟨rfl, rfl⟩
          · exact absurd h (by decide))
        have h2 := hsame cs!"c" (fun m hm hp => by rcases hplace _ m hm hp with ⟨h, -⟩ | h <;> exact absurd h (by decide))
        rw [a2, a2]
        simp only [plainRef, List.mapM_cons, List.mapM_nil, h1, h2]) (by
      intro c disk old h
      unfold adds at h ⊢
      split at h
      · cases h
      · rfl) (by
      intro n c hc d hd
      have : n = some cs!"first" ∨ n = none := (hnames n).1 (List.mem_map.2 ⟨_, hc, rfl⟩)
      rcases this with rfl | rfl <;> cases hd)
  obtain ⟨k1, k2, k3⟩ := key
  have hdone := k1.2 (by
    intro n hn
    rcases (hnames n).1 hn with rfl | rfl
    · exact ⟨_, hfirst⟩
    · exact ⟨_, hlast⟩)
  refine ⟨hdone, (k2 hdone (some cs!"first") ((hnames _).2 (Or.inl rfl)) 3).2 hfirst, (k2 hdone none ((hnames _).2 (Or.inr rfl)) 13).2 hlast, ?_⟩
  refine (k3 cs!"a" ?_).trans rfl
  intro m hm
  rcases (hnames m).1 hm with rfl | rfl <;> decide

/-- C144 for chat templates: the same recipe with a chat template in which two sums occur is refused. -/
theorem C144_template_case (L : Lib ℚ) (r : MultiRun ℚ) :
    multiMain (multiWorld L (twoDocs (.str cs!"{{ a + b + c }}"))) [cs!"r.yml", cs!"-I", cs!"/tmp/x", cs!"--out-path", cs!"out", cs!"--no-lazy"] ≠ .ok r := by
  obtain ⟨k, h1, h2⟩ := multi_called
  exact C144_template (multiWorld L _) multiLine h1 h2 (F := cs!"r.yml") (by decide +kernel) (multiWorld_file L _) rfl (twoDocs_some L _) (n := none) (c := lastConf (some cs!"{{ a + b + c }}")) (by simp [twoMerges]) rfl rfl r

/-- One document, named like its method. -/
def ownDocs : List (Doc ℚ) := [.dict [(cs!"name", .str cs!"linear"), (cs!"merge_method", .str cs!"linear"), (cs!"models", .list [.dict [(cs!"model", .str cs!"a")]])]]

/-- C144 for names of methods. -/
theorem C144_own_method_case (L : Lib ℚ) (r : MultiRun ℚ) : multiMain (multiWorld L ownDocs) [cs!"r.yml", cs!"-I", cs!"/tmp/x", cs!"--out-path", cs!"out", cs!"--no-lazy"] ≠ .ok r := by
  obtain ⟨k, h1, h2⟩ := multi_called
  exact C144_own_method (multiWorld L ownDocs) multiLine h1 h2 (F := cs!"r.yml") (by decide +kernel) (multiWorld_file L _) rfl
    (es := [(some cs!"linear", { mergeMethod := cs!"linear", models := some [⟨plainRef cs!"a", none⟩] })])
    (.cons ⟨_, rfl, .given (by intro h; cases h) (.mk _), C130_reads (c := { mergeMethod := cs!"linear", models := some [⟨plainRef cs!"a", none⟩] }) rfl, .none rfl⟩ .nil)
    (s := cs!"linear") List.mem_cons_self rfl ⟨by decide, by decide⟩ r

/-- C144 for two merges of the same name. -/
theorem C144_same_name_case (L : Lib ℚ) : multiMain (multiWorld L (ownDocs ++ ownDocs)) [cs!"r.yml", cs!"-I", cs!"/tmp/x", cs!"--out-path", cs!"out", cs!"--no-lazy"] = .error (.recipe .duplicate) := by
  obtain ⟨k, h1, h2⟩ := multi_called
  have hd : ∃ x, (ownDocs.head?) = some (.dict x) ∧ NamedSays L x (some cs!"linear", { mergeMethod := cs!"linear", models := some [⟨plainRef cs!"a", none⟩] }) :=
    ⟨_, rfl, .given (by intro h; cases h) (.mk _), C130_reads (c := { mergeMethod := cs!"linear", models := some [⟨plainRef cs!"a", none⟩] }) rfl, .none rfl⟩
  obtain ⟨x, hx, hs⟩ := hd
  cases hx
  exact C144_same_name (multiWorld L (ownDocs ++ ownDocs)) multiLine h1 h2 (F := cs!"r.yml") (by decide +kernel) (multiWorld_file L _) rfl (.cons ⟨_, rfl, hs⟩ (.cons ⟨_, rfl, hs⟩ .nil)) (by decide)

-- without a path for the merge that has no name
example (L : Lib ℚ) : multiMain (multiWorld L (twoDocs .null)) [cs!"r.yml", cs!"-I", cs!"/tmp/x"] = .error (.recipe .usage) := by rfl

/-- Two merges that refer to each other. -/
def circle : List (Doc ℚ) :=
  [.dict [(cs!"name", .str cs!"p"), (cs!"merge_method", .str cs!"linear"), (cs!"models", .list [.dict [(cs!"model", .str cs!"q")]])],
   .dict [(cs!"name", .str cs!"q"), (cs!"merge_method", .str cs!"linear"), (cs!"models", .list [.dict [(cs!"model", .str cs!"p")]])]]

example (L : Lib ℚ) : multiMain (multiWorld L circle) [cs!"r.yml", cs!"-I", cs!"/tmp/x"] = .error (.recipe .circular) := by rfl

end Verif.Main
