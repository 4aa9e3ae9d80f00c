import Verif.Model.Document
import Verif.Props.ModelRef
import Mathlib.Data.Rat.Floor

/-! # C130: configurations can be written and read again -/

namespace Verif.Document

open Verif.ModelRef (Str ModelPath Ref)

variable {K : Type}

/-! ## What is claimed -/

/-- A reference that can be written: the parts have no separators, blanks or quotes (unless written by fields, which an architecture override leads to). -/
def Writable (r : Ref) : Prop := r.overrideArchitecture.isSome = true ∨ (r.Plain ∧ '"' ∉ r.print ∧ ' ' ∉ r.print)

/-- The references in a list of slices. -/
def sliceRefs (l : List (OutSlice K)) : List Ref := l.flatMap (fun s => s.baseModel.toList ++ s.sources.map (fun x => x.model))

/-- The references in the source of a token. -/
def tokenRefs : Option TokenSource → List Ref
  | some (.modelToken m _ _) => [m]
  | some (.ref r) => [r]
  | _ => []

/-- A reference as the source of a vocabulary. -/
def vocabRefs : VocabSource → List Ref
  | .ref r => [r]
  | _ => []

/-- The sources of vocabularies that are models. -/
def Conf.vocabs (c : Conf K) : List Ref := (c.tokenizerSource.map vocabRefs).getD [] ++ (c.tokenizer.map (fun t => vocabRefs t.source)).getD []

/-- All references of a configuration. -/
def Conf.refs (c : Conf K) : List Ref :=
  (c.modules.getD []).flatMap (fun m => sliceRefs (m.2.slices.getD []) ++ (m.2.models.getD []).map (fun x => x.model)) ++ sliceRefs (c.slices.getD []) ++
    (c.models.getD []).map (fun x => x.model) ++ c.baseModel.toList ++ c.vocabs ++ (c.tokenizer.bind (fun t => t.tokens)).toList.flatMap (fun l => l.flatMap (fun e => tokenRefs e.2.source))

/-! ## What a document says

Relations between documents and what they stand for, field by field. -/

/-- A value that may be missing or null. -/
inductive Maybe {A : Type} (P : Doc K → A → Prop) : Option (Doc K) → Option A → Prop
  | missing : Maybe P none none
  | null : Maybe P (some .null) none
  | given {d a} : d ≠ .null → P d a → Maybe P (some d) (some a)

/-- A value that must be there. -/
def Has {A : Type} (P : Doc K → A → Prop) (d : List (Str × Doc K)) (k : Str) (a : A) : Prop := ∃ v, d.lookup k = some v ∧ P v a

/-- A list, element by element. -/
inductive Listed {A : Type} (P : Doc K → A → Prop) : Doc K → List A → Prop
  | mk {l as} : List.Forall₂ P l as → Listed P (.list l) as

/-- A map, entry by entry. -/
inductive Mapped {A : Type} (P : Doc K → A → Prop) : Doc K → List (Str × A) → Prop
  | mk {d as} : List.Forall₂ (fun e a => e.1 = a.1 ∧ P e.2 a.2) d as → Mapped P (.dict d) as

/-- A text. -/
inductive Text : Doc K → Str → Prop
  | mk (s) : Text (.str s) s

/-- A number: one, or a text that is one. -/
inductive Number (L : Lib K) : Doc K → K → Prop
  | float (x) : Number L (.float x) x
  | int (i) : Number L (.int i) (L.ofInt i)
  | yes : Number L (.bool true) (L.ofInt 1)
  | no : Number L (.bool false) (L.ofInt 0)
  | text {s x} : L.strFloat s = some x → Number L (.str s) x

/-- A whole number. -/
inductive Integer (L : Lib K) : Doc K → Int → Prop
  | float {x i} : L.toInt x = some i → Integer L (.float x) i
  | int (i) : Integer L (.int i) i
  | yes : Integer L (.bool true) 1
  | no : Integer L (.bool false) 0
  | text {s i} : L.strInt s = some i → Integer L (.str s) i

/-- A path: `path@revision` or its fields. -/
inductive PathSays : Doc K → ModelPath → Prop
  | text {s p} : ModelRef.parsePath s = .ok p → PathSays (.str s) p
  | fields {d p r} : Has Text d cs!"path" p → Maybe Text (d.lookup cs!"revision") r → PathSays (.dict d) ⟨p, r⟩

/-- A reference: `model+lora` or its fields. -/
inductive RefSays : Doc K → Ref → Prop
  | text {s r} : ModelRef.parse s = .ok r → RefSays (.str s) r
  | fields {d m l o} : Has PathSays d cs!"model" m → Maybe PathSays (d.lookup cs!"lora") l → Maybe Text (d.lookup cs!"override_architecture") o → RefSays (.dict d) ⟨m, l, o⟩

/-- A number or a list of numbers. -/
inductive Numbers (L : Lib K) : Doc K → Num K → Prop
  | one {d x} : Number L d x → Numbers L d (.one x)
  | many {l xs} : List.Forall₂ (Number L) l xs → Numbers L (.list l) (.many xs)

/-- `{value: .., filter: ..}`. -/
inductive Conditional (L : Lib K) : Doc K → Cond K → Prop
  | mk {d n f} : Has (Numbers L) d cs!"value" n → Maybe Text (d.lookup cs!"filter") f → Conditional L (.dict d) ⟨n, f⟩

/-- A setting of a parameter. -/
inductive Says (L : Lib K) : Doc K → Setting K → Prop
  | one {d x} : Number L d x → Says L d (.num (.one x))
  | many {l xs} : l ≠ [] → List.Forall₂ (Number L) l xs → Says L (.list l) (.num (.many xs))
  | cond {d c} : Conditional L d c → Says L d (.cond c)
  | conds {l cs} : List.Forall₂ (Conditional L) l cs → Says L (.list l) (.conds cs)

/-- `{model: .., layer_range: [.., ..], parameters: ..}`. -/
inductive SourceSays (L : Lib K) : Doc K → InSlice K → Prop
  | mk {d a b m x y p} : Has RefSays d cs!"model" m → d.lookup cs!"layer_range" = some (.list [a, b]) → Integer L a x → Integer L b y →
      Maybe (Mapped (Says L)) (d.lookup cs!"parameters") p → SourceSays L (.dict d) ⟨m, x, y, p⟩

/-- `{model: .., parameters: ..}`. -/
inductive ModelSays (L : Lib K) : Doc K → InModel K → Prop
  | mk {d m p} : Has RefSays d cs!"model" m → Maybe (Mapped (Says L)) (d.lookup cs!"parameters") p → ModelSays L (.dict d) ⟨m, p⟩

/-- `{sources: [..], base_model: .., residual_weight: .., parameters: ..}`. -/
inductive SliceSays (L : Lib K) : Doc K → OutSlice K → Prop
  | mk {d s b w p} : Has (Listed (SourceSays L)) d cs!"sources" s → Maybe RefSays (d.lookup cs!"base_model") b → Maybe (Number L) (d.lookup cs!"residual_weight") w →
      Maybe (Mapped (Says L)) (d.lookup cs!"parameters") p → SliceSays L (.dict d) ⟨s, b, w, p⟩

/-- Something is in the list. -/
def Filled {A : Type} (l : Option (List A)) : Prop := ∃ a as, l = some (a :: as)

/-- `{slices: [..], parameters: ..}` or `{models: [..], parameters: ..}`. -/
inductive ModuleSays (L : Lib K) : Doc K → OutModule K → Prop
  | mk {d s m p} : Maybe (Listed (SliceSays L)) (d.lookup cs!"slices") s → Maybe (Listed (ModelSays L)) (d.lookup cs!"models") m →
      Maybe (Mapped (Says L)) (d.lookup cs!"parameters") p → (Filled s ↔ ¬ Filled m) → ModuleSays L (.dict d) ⟨s, m, p⟩

/-- `{kind: model_token, model: .., token_id: ..}`, or with `token`. -/
inductive ModelToken (L : Lib K) : Doc K → TokenSource → Prop
  | mk {d m i t} : Has Text d cs!"kind" cs!"model_token" → Has RefSays d cs!"model" m → Maybe (Integer L) (d.lookup cs!"token_id") i → Maybe Text (d.lookup cs!"token") t →
      (i.isSome = true ↔ ¬ t.isSome = true) → ModelToken L (.dict d) (.modelToken m i t)

/-- Where a token is from. -/
inductive TokenSays (L : Lib K) : Doc K → TokenSource → Prop
  | token {d s} : ModelToken L d s → TokenSays L d s
  | zero {d} : Has Text d cs!"kind" cs!"zero" → TokenSays L (.dict d) .zero
  | ref {d r} : RefSays d r → (∀ s, ¬ ModelToken L d s) → TokenSays L d (.ref r)

/-- A flag. -/
inductive Flag (L : Lib K) : Doc K → Bool → Prop
  | flag (b) : Flag L (.bool b) b
  | one : Flag L (.int 1) true
  | zero : Flag L (.int 0) false
  | fone {x} : L.toInt x = some 1 → Flag L (.float x) true
  | fzero {x} : L.toInt x = some 0 → Flag L (.float x) false
  | text {s b} : L.strBool s = some b → Flag L (.str s) b

/-- A value with a default. -/
inductive Default {A : Type} (a : A) (P : Doc K → A → Prop) : Option (Doc K) → A → Prop
  | missing : Default a P none a
  | given {d b} : P d b → Default a P (some d) b

/-- `{source: .., force: ..}`. -/
inductive TokenConfSays (L : Lib K) : Doc K → TokenConf → Prop
  | mk {d s f} : Maybe (TokenSays L) (d.lookup cs!"source") s → Default false (Flag L) (d.lookup cs!"force") f → TokenConfSays L (.dict d) ⟨s, f⟩

/-- `union`, `base` or a model. -/
inductive VocabSays : Doc K → VocabSource → Prop
  | union : VocabSays (.str cs!"union") .union
  | base : VocabSays (.str cs!"base") .base
  | ref {d r} : (∀ s, d = .str s → s ≠ cs!"union" ∧ s ≠ cs!"base") → RefSays d r → VocabSays d (.ref r)

/-- `{source: .., tokens: .., pad_to_multiple_of: ..}`. -/
inductive TokenizerSays (L : Lib K) : Doc K → TokenizerConf → Prop
  | mk {d s t p} : Default .union VocabSays (d.lookup cs!"source") s → Maybe (Mapped (TokenConfSays L)) (d.lookup cs!"tokens") t →
      Maybe (Integer L) (d.lookup cs!"pad_to_multiple_of") p → TokenizerSays L (.dict d) ⟨s, t, p⟩

/-- A whole configuration, its inputs given in exactly one way and its tokenizer in at most one. -/
structure ConfSays (L : Lib K) (d : List (Str × Doc K)) (c : Conf K) : Prop where
  modules : Maybe (Mapped (ModuleSays L)) (d.lookup cs!"modules") c.modules
  slices : Maybe (Listed (SliceSays L)) (d.lookup cs!"slices") c.slices
  models : Maybe (Listed (ModelSays L)) (d.lookup cs!"models") c.models
  mergeMethod : Has Text d cs!"merge_method" c.mergeMethod
  baseModel : Maybe RefSays (d.lookup cs!"base_model") c.baseModel
  dtype : Maybe Text (d.lookup cs!"dtype") c.dtype
  tokenizerSource : Maybe VocabSays (d.lookup cs!"tokenizer_source") c.tokenizerSource
  tokenizer : Maybe (TokenizerSays L) (d.lookup cs!"tokenizer") c.tokenizer
  chatTemplate : Maybe Text (d.lookup cs!"chat_template") c.chatTemplate
  outDtype : Maybe Text (d.lookup cs!"out_dtype") c.outDtype
  parameters : Maybe (Mapped (Says L)) (d.lookup cs!"parameters") c.parameters
  one : (Filled c.modules ∧ ¬ Filled c.slices ∧ ¬ Filled c.models) ∨ (¬ Filled c.modules ∧ Filled c.slices ∧ ¬ Filled c.models) ∨
    (¬ Filled c.modules ∧ ¬ Filled c.slices ∧ Filled c.models)
  tokenizers : c.tokenizerSource = none ∨ c.tokenizer = none

/-! ## Lists of fields -/

theorem lookup_field {A : Type} (k k' : Str) (f : A → Doc K) (o : Option A) (rest : List (Str × Doc K)) :
    (field k f o ++ rest).lookup k' = if k' = k then (o.map f).or (rest.lookup k') else rest.lookup k' := by
  cases o with
  | none => simp [field]
  | some a =>
    simp only [field, List.cons_append, List.nil_append, List.lookup_cons, Option.map_some, Option.some_or]
    by_cases h : k' = k
    · subst h; simp
    · rw [if_neg h, beq_eq_false_iff_ne.2 h]

theorem lookup_field' {A : Type} (k k' : Str) (f : A → Doc K) (o : Option A) : (field k f o).lookup k' = if k' = k then o.map f else none := by
  have := lookup_field k k' f o []
  simpa using this

theorem opt_map {A : Type} {f : Doc K → R A} {g : A → Doc K} {o : Option A} (h : ∀ a, o = some a → f (g a) = .ok a ∧ g a ≠ .null) : opt f (o.map g) = .ok o := by
  cases o with
  | none => rfl
  | some a =>
    obtain ⟨h1, h2⟩ := h a rfl
    rw [Option.map_some]
    have : opt f (some (g a)) = (f (g a)).map some := by
      generalize g a = d at h2
      cases d <;> first | rfl | exact absurd rfl h2
    rw [this, h1]
    rfl

theorem opt_null {A : Type} (f : Doc K → R A) : opt f (some .null) = .ok none := rfl

theorem each_map {A B : Type} {f : B → R A} {g : A → B} {l : List A} (h : ∀ a ∈ l, f (g a) = .ok a) : each f (l.map g) = .ok l := by
  induction l with
  | nil => rfl
  | cons a l ih =>
    rw [List.map_cons, each, h a List.mem_cons_self]
    simp only
    rw [ih (fun x hx => h x (List.mem_cons_of_mem _ hx))]

theorem readList_dump {A : Type} {f : Doc K → R A} {g : A → Doc K} {l : List A} (h : ∀ a ∈ l, f (g a) = .ok a) : readList f (dumpList g l) = .ok l := each_map h

theorem readDict_dump {A : Type} {f : Doc K → R A} {g : A → Doc K} {l : List (Str × A)} (h : ∀ e ∈ l, f (g e.2) = .ok e.2) : readDict f (dumpDict g l) = .ok l := by
  refine each_map (g := fun e : Str × A => (e.1, g e.2)) ?_
  intro e he
  rw [h e he]
  rfl

theorem readStr_dump (a : Str) : readStr (.str a : Doc K) = .ok a := rfl

/-! ## References -/

theorem path_again (p : ModelPath) : readPath (dumpPath p : Doc K) = .ok p := by
  unfold readPath dumpPath
  simp [List.lookup_cons, lookup_field', req, readStr, opt_map, bind, Except.bind]

theorem path_not_null (p : ModelPath) : (dumpPath p : Doc K) ≠ .null := by simp [dumpPath]

theorem ref_not_null (r : Ref) : (dumpRef r : Doc K) ≠ .null := by
  unfold dumpRef
  split <;> simp

theorem ref_again {r : Ref} (h : Writable r) : readRef (dumpRef r : Doc K) = .ok r := by
  unfold dumpRef
  by_cases ho : r.overrideArchitecture.isSome = true
  · have : r.serialize = .fields r := by unfold Ref.serialize; rw [if_pos ho]
    rw [this]
    unfold readRef
    obtain ⟨m, l, o⟩ := r
    cases l with
    | none => simp [List.lookup_cons, lookup_field', req, path_again, opt_null, opt_map, readStr, bind, Except.bind]
    | some l =>
      have : opt readPath (some (dumpPath l : Doc K)) = .ok (some l) := opt_map (o := some l) (g := dumpPath) (fun a ha => by cases ha; exact ⟨path_again _, path_not_null _⟩)
      simp [List.lookup_cons, lookup_field', req, path_again, this, opt_map, readStr, bind, Except.bind]
  · rcases h with h | ⟨h1, h2, h3⟩
    · exact absurd h ho
    · have : r.serialize = .str r.print := by unfold Ref.serialize; rw [if_neg ho, if_neg (by simp [h2, h3])]
      rw [this]
      show orRuntime (ModelRef.parse r.print) = _
      rw [ModelRef.C24_parse_print r h1]
      rfl

/-! ## Settings -/

/-- Settings as they are read: an empty list is one of conditional values. -/
def SettingNormal (s : Setting K) : Prop := s ≠ .num (.many [])

/-- Parameters as they are read. -/
def ParamsNormal (p : Option (Params K)) : Prop := ∀ q, p = some q → ∀ e ∈ q, SettingNormal e.2

variable {L : Lib K}

theorem num_again (n : Num K) : readNum L (dumpNum n) = .ok n := by
  cases n with
  | one x => rfl
  | many l =>
    show (each (readFloat L) (l.map .float)).map Num.many = _
    rw [each_map (f := readFloat L) (g := Doc.float) (fun _ _ => rfl)]
    rfl

theorem cond_again (c : Cond K) : readCond L (dumpCond c) = .ok c := by
  unfold readCond dumpCond
  simp [List.lookup_cons, lookup_field', req, num_again, opt_map, readStr, bind, Except.bind]

theorem setting_again {s : Setting K} (h : SettingNormal s) : readSetting L (dumpSetting s) = .ok s := by
  cases s with
  | num n =>
    cases n with
    | one x => rfl
    | many l =>
      cases l with
      | nil => exact absurd rfl h
      | cons x l =>
        have : each (readCond L) ((x :: l).map Doc.float) = .error .validation := rfl
        show readSetting L (.list ((x :: l).map Doc.float)) = _
        unfold readSetting
        simp only
        rw [this]
        simp only
        rw [each_map (f := readFloat L) (g := Doc.float) (fun _ _ => rfl)]
        rfl
  | cond c =>
    show (readCond L (dumpCond c)).map Setting.cond = _
    rw [cond_again]
    rfl
  | conds l =>
    show readSetting L (.list (l.map dumpCond)) = _
    unfold readSetting
    simp only
    rw [each_map (f := readCond L) (g := dumpCond) (fun c _ => cond_again c)]

theorem params_again {p : Option (Params K)} (h : ParamsNormal p) : opt (readParams L) (p.map dumpParams) = .ok p :=
  opt_map (fun q hq => ⟨readDict_dump (fun e he => setting_again (h q hq e he)), by simp [dumpParams, dumpDict]⟩)

/-! ## Parts -/

theorem inSlice_again {s : InSlice K} (h : ParamsNormal s.parameters) (hr : Writable s.model) : readInSlice L (dumpInSlice s) = .ok s := by
  unfold readInSlice dumpInSlice
  simp [List.lookup_cons, lookup_field', req, ref_again hr, params_again h, readRange, readInt, bind, Except.bind]

theorem inModel_again {s : InModel K} (h : ParamsNormal s.parameters) (hr : Writable s.model) : readInModel L (dumpInModel s) = .ok s := by
  unfold readInModel dumpInModel
  simp [List.lookup_cons, lookup_field', req, ref_again hr, params_again h, bind, Except.bind]

/-- Slices as they are read. -/
def SliceNormal (s : OutSlice K) : Prop := ParamsNormal s.parameters ∧ ∀ x ∈ s.sources, ParamsNormal x.parameters

theorem optRef_again {r : Option Ref} (h : ∀ x, r = some x → Writable x) : opt readRef (r.map (dumpRef (K := K))) = .ok r :=
  opt_map (fun x hx => ⟨ref_again (h x hx), ref_not_null x⟩)

theorem outSlice_again {s : OutSlice K} (h : SliceNormal s) (hr : ∀ r ∈ sliceRefs [s], Writable r) : readOutSlice L (dumpOutSlice s) = .ok s := by
  have h1 : readList (readInSlice L) (dumpList dumpInSlice s.sources) = .ok s.sources :=
    readList_dump (fun x hx => inSlice_again (h.2 x hx) (hr _ (by simp only [sliceRefs, List.flatMap_cons, List.flatMap_nil, List.append_nil]; exact List.mem_append_right _ (List.mem_map.2 ⟨x, hx, rfl⟩))))
  have h2 : opt readRef (s.baseModel.map (dumpRef (K := K))) = .ok s.baseModel := optRef_again (fun x hx => hr x (by simp [sliceRefs, hx]))
  have h3 : opt (readFloat L) (s.residualWeight.map Doc.float) = .ok s.residualWeight := opt_map (fun _ _ => ⟨rfl, by simp⟩)
  unfold readOutSlice dumpOutSlice
  simp [List.lookup_cons, lookup_field, lookup_field', req, h1, h2, h3, params_again h.1, bind, Except.bind]

theorem slices_again {l : Option (List (OutSlice K))} (h : ∀ s ∈ l.getD [], SliceNormal s) (hr : ∀ r ∈ sliceRefs (l.getD []), Writable r) :
    opt (readList (readOutSlice L)) (l.map (dumpList dumpOutSlice)) = .ok l := by
  refine opt_map (fun x hx => ⟨readList_dump (fun s hs => outSlice_again (h s (by rw [hx]; exact hs)) ?_), by simp [dumpList]⟩)
  intro r hrr
  refine hr r ?_
  rw [hx]
  simp only [sliceRefs, List.flatMap_cons, List.flatMap_nil, List.append_nil, Option.getD_some] at hrr ⊢
  exact List.mem_flatMap.2 ⟨s, hs, hrr⟩

theorem models_again {l : Option (List (InModel K))} (h : ∀ s ∈ l.getD [], ParamsNormal s.parameters) (hr : ∀ s ∈ l.getD [], Writable s.model) :
    opt (readList (readInModel L)) (l.map (dumpList dumpInModel)) = .ok l :=
  opt_map (fun x hx => ⟨readList_dump (fun s hs => inModel_again (h s (by rw [hx]; exact hs)) (hr s (by rw [hx]; exact hs))), by simp [dumpList]⟩)

/-- Modules as they are read. -/
structure ModuleNormal (m : OutModule K) : Prop where
  slices : ∀ s ∈ m.slices.getD [], SliceNormal s
  models : ∀ x ∈ m.models.getD [], ParamsNormal x.parameters
  params : ParamsNormal m.parameters
  one : given m.slices ≠ given m.models

theorem outModule_again {m : OutModule K} (h : ModuleNormal m) (hr : ∀ r ∈ sliceRefs (m.slices.getD []), Writable r) (hm : ∀ x ∈ m.models.getD [], Writable x.model) :
    readOutModule L (dumpOutModule m) = .ok m := by
  unfold readOutModule dumpOutModule
  simp [lookup_field, lookup_field', slices_again h.slices hr, models_again h.models hm, params_again h.params, h.one, bind, Except.bind]

/-! ## Tokenizers -/

/-- Sources of tokens as they are read. -/
def TokenNormal (c : TokenConf) : Prop := ∀ m i t, c.source = some (.modelToken m i t) → i.isSome ≠ t.isSome

theorem tokenSource_again {s : TokenSource} (h : ∀ m i t, s = .modelToken m i t → i.isSome ≠ t.isSome) (hr : ∀ r ∈ tokenRefs (some s), Writable r) :
    readTokenSource L (dumpTokenSource s) = .ok s := by
  cases s with
  | modelToken m i t =>
    have h1 := h m i t rfl
    have h2 : opt (readInt L) (i.map Doc.int) = .ok i := opt_map (fun _ _ => ⟨rfl, by simp⟩)
    have h3 : opt readStr (t.map (Doc.str (K := K))) = .ok t := opt_map (fun _ _ => ⟨rfl, by simp⟩)
    have : readModelToken L ([(cs!"kind", .str cs!"model_token"), (cs!"model", dumpRef m)] ++ field cs!"token_id" .int i ++ field cs!"token" .str t) = .ok (.modelToken m i t) := by
      unfold readModelToken
      simp [List.lookup_cons, lookup_field, lookup_field', req, readStr_dump, ref_again (hr m (by simp [tokenRefs])), h2, h3, h1, bind, Except.bind]
    unfold readTokenSource dumpTokenSource
    simp only
    rw [this]
  | zero => rfl
  | ref r =>
    have hw := hr r (by simp [tokenRefs])
    have hread := ref_again (K := K) hw
    have hno : ∀ d, (dumpRef r : Doc K) = .dict d → d.lookup cs!"kind" = none := by
      intro d hd
      unfold dumpRef at hd
      split at hd
      · cases hd
      · cases hd
        simp [List.lookup_cons, lookup_field']
    show readTokenSource L (dumpRef r) = _
    generalize hd : (dumpRef r : Doc K) = d at hread hno
    cases d with
    | dict d =>
      have hk := hno d rfl
      have h1 : readModelToken L d = .error .validation := by unfold readModelToken; rw [hk]; rfl
      have h2 : readZero d = .error .validation := by unfold readZero; rw [hk]; rfl
      unfold readTokenSource
      simp only [h1, h2, hread]
    | null => cases hread
    | bool b => cases hread
    | int i => cases hread
    | float x => cases hread
    | list l => cases hread
    | str s =>
      show (readRef (.str s)).map TokenSource.ref = _
      rw [hread]
      rfl

theorem tokenSource_not_null (s : TokenSource) : (dumpTokenSource s : Doc K) ≠ .null := by
  cases s <;> simp [dumpTokenSource, ref_not_null]

theorem tokenConf_again {c : TokenConf} (full : Bool) (h : TokenNormal c) (hr : ∀ r ∈ tokenRefs c.source, Writable r) : readTokenConf L (dumpTokenConf full c) = .ok c := by
  have h1 : opt (readTokenSource L) (c.source.map dumpTokenSource) = .ok c.source :=
    opt_map (fun s hs => ⟨tokenSource_again (fun m i t he => h m i t (by rw [hs, he])) (fun r hrr => hr r (by rw [hs]; exact hrr)), tokenSource_not_null s⟩)
  unfold readTokenConf dumpTokenConf
  obtain ⟨s, f⟩ := c
  cases full <;> cases f <;> simp [List.lookup_cons, lookup_field, lookup_field', h1, deflt, readBool, bind, Except.bind]

/-- A model used as vocabulary whose name is not one of the two words. -/
def NotWord (r : Ref) : Prop := r.print ≠ cs!"union" ∧ r.print ≠ cs!"base"

theorem vocab_not_null (v : VocabSource) : (dumpVocabSource v : Doc K) ≠ .null := by
  cases v <;> simp [dumpVocabSource, ref_not_null]

theorem vocab_again {v : VocabSource} (hr : ∀ r ∈ vocabRefs v, Writable r ∧ NotWord r) : readVocabSource (dumpVocabSource v : Doc K) = .ok v := by
  cases v with
  | union => rfl
  | base => rfl
  | ref r =>
    obtain ⟨hw, hn⟩ := hr r (by simp [vocabRefs])
    have hread := ref_again (K := K) hw
    have hs : ∀ s, (dumpRef r : Doc K) = .str s → s = r.print := by
      intro s hs
      unfold dumpRef at hs
      split at hs
      · rename_i t ht
        cases hs
        unfold Ref.serialize at ht
        split at ht
        · cases ht
        · split at ht
          · cases ht
          · cases ht; rfl
      · cases hs
    show readVocabSource (dumpRef r : Doc K) = _
    generalize hd : (dumpRef r : Doc K) = d at hread hs
    cases d with
    | str s =>
      have := hs s rfl
      subst this
      unfold readVocabSource
      simp only
      rw [if_neg hn.1, if_neg hn.2, hread]
      rfl
    | dict d =>
      show (readRef (.dict d)).map VocabSource.ref = _
      rw [hread]
      rfl
    | null => cases hread
    | bool b => cases hread
    | int i => cases hread
    | float x => cases hread
    | list l => cases hread

theorem tokenizer_again {c : TokenizerConf} (full : Bool) (h : ∀ l, c.tokens = some l → ∀ e ∈ l, TokenNormal e.2) (hr : ∀ l, c.tokens = some l → ∀ e ∈ l, ∀ r ∈ tokenRefs e.2.source, Writable r)
    (hv : ∀ r ∈ vocabRefs c.source, Writable r ∧ NotWord r) : readTokenizer L (dumpTokenizer full c) = .ok c := by
  have h1 : opt (readDict (readTokenConf L)) (c.tokens.map (dumpDict (dumpTokenConf full))) = .ok c.tokens :=
    opt_map (fun l hl => ⟨readDict_dump (fun e he => tokenConf_again full (h l hl e he) (hr l hl e he)), by simp [dumpDict]⟩)
  have h2 : opt (readInt L) (c.pad.map Doc.int) = .ok c.pad := opt_map (fun _ _ => ⟨rfl, by simp⟩)
  have h3 := vocab_again (K := K) hv
  unfold readTokenizer dumpTokenizer
  by_cases hc : (full || c.source ≠ .union) = true
  · rw [if_pos hc]
    simp [List.lookup_cons, lookup_field, lookup_field', h1, h2, h3, deflt, bind, Except.bind]
  · rw [if_neg hc]
    have hu : c.source = .union := by simpa using (fun h => hc (by simp [h]) : ¬ c.source ≠ .union)
    simp [lookup_field, lookup_field', h1, h2, deflt, bind, Except.bind]
    rw [← hu]

/-! ## Whole configurations -/

/-- Configurations as they are read. -/
structure Normal (c : Conf K) : Prop where
  modules : ∀ e ∈ c.modules.getD [], ModuleNormal e.2
  slices : ∀ s ∈ c.slices.getD [], SliceNormal s
  models : ∀ m ∈ c.models.getD [], ParamsNormal m.parameters
  params : ParamsNormal c.parameters
  tokens : ∀ t l, c.tokenizer = some t → t.tokens = some l → ∀ e ∈ l, TokenNormal e.2
  check : check c = .ok c

theorem conf_again {c : Conf K} (full : Bool) (h : Normal c) (hr : ∀ r ∈ c.refs, Writable r) (hw : ∀ r ∈ c.vocabs, NotWord r) : read L (dump full c) = .ok c := by
  have hv : ∀ r ∈ c.vocabs, Writable r ∧ NotWord r := fun r hrr => ⟨hr r (by simp only [Conf.refs, List.mem_append]; tauto), hw r hrr⟩
  have h1 : opt (readDict (readOutModule L)) (c.modules.map (dumpDict dumpOutModule)) = .ok c.modules := by
    refine opt_map (fun l hl => ⟨readDict_dump (fun e he => outModule_again (h.modules e (by rw [hl]; exact he)) ?_ ?_), by simp [dumpDict]⟩)
    · intro r hrr
      refine hr r ?_
      have : r ∈ (c.modules.getD []).flatMap (fun m => sliceRefs (m.2.slices.getD []) ++ (m.2.models.getD []).map (fun x => x.model)) :=
        List.mem_flatMap.2 ⟨e, by rw [hl]; exact he, List.mem_append_left _ hrr⟩
      simp only [Conf.refs, List.mem_append]
      tauto
    · intro x hx
      refine hr x.model ?_
      have : x.model ∈ (c.modules.getD []).flatMap (fun m => sliceRefs (m.2.slices.getD []) ++ (m.2.models.getD []).map (fun x => x.model)) :=
        List.mem_flatMap.2 ⟨e, by rw [hl]; exact he, List.mem_append_right _ (List.mem_map.2 ⟨x, hx, rfl⟩)⟩
      simp only [Conf.refs, List.mem_append]
      tauto
  have h2 := slices_again (L := L) h.slices (fun r hrr => hr r (by simp only [Conf.refs, List.mem_append]; tauto))
  have h3 := models_again (L := L) h.models (fun m hm => hr m.model (by
    have : m.model ∈ (c.models.getD []).map (fun x => x.model) := List.mem_map.2 ⟨m, hm, rfl⟩
    simp only [Conf.refs, List.mem_append]
    tauto))
  have h4 := optRef_again (K := K) (r := c.baseModel) (fun x hx => hr x (by
    have : x ∈ c.baseModel.toList := by rw [hx]; simp
    simp only [Conf.refs, List.mem_append]
    tauto))
  have hstr : ∀ o : Option Str, opt readStr (o.map (Doc.str (K := K))) = .ok o := fun o => opt_map (fun _ _ => ⟨rfl, by simp⟩)
  have h5 : opt readVocabSource (c.tokenizerSource.map (dumpVocabSource (K := K))) = .ok c.tokenizerSource :=
    opt_map (fun v hvs => ⟨vocab_again (fun r hrr => hv r (by unfold Conf.vocabs; rw [hvs]; exact List.mem_append_left _ hrr)), vocab_not_null v⟩)
  have h6 : opt (readTokenizer L) (c.tokenizer.map (dumpTokenizer full)) = .ok c.tokenizer := by
    refine opt_map (fun t ht => ⟨tokenizer_again full (fun l hl => h.tokens t l ht hl) ?_ ?_, by simp [dumpTokenizer]⟩)
    · intro l hl e he r hrr
      refine hr r ?_
      have : r ∈ (c.tokenizer.bind (fun t => t.tokens)).toList.flatMap (fun l => l.flatMap (fun e => tokenRefs e.2.source)) := by
        rw [ht]
        simp only [Option.bind_some, hl, Option.toList_some, List.flatMap_cons, List.flatMap_nil, List.append_nil]
        exact List.mem_flatMap.2 ⟨e, he, hrr⟩
      simp only [Conf.refs, List.mem_append]
      tauto
    · intro r hrr
      refine hv r ?_
      unfold Conf.vocabs
      rw [ht]
      exact List.mem_append_right _ hrr
  have h7 := params_again (L := L) h.params
  have hck := h.check
  unfold read dump
  simp only [List.append_assoc, List.cons_append, List.nil_append, lookup_field, lookup_field', List.lookup_cons]
  simp [h1, h2, h3, h4, h5, h6, h7, hstr, req, readStr_dump, bind, Except.bind, hck]

/-! ## What reading yields -/

theorem bind_ok {A B : Type} {x : R A} {f : A → R B} {y : B} : (x >>= f) = .ok y ↔ ∃ a, x = .ok a ∧ f a = .ok y := by
  cases x with
  | error e => simp [bind, Except.bind]
  | ok a => simp [bind, Except.bind]

theorem map_ok {A B : Type} {x : R A} {f : A → B} {y : B} : x.map f = .ok y ↔ ∃ a, x = .ok a ∧ f a = y := by
  cases x with
  | error e => simp [Except.map]
  | ok a => simp [Except.map]

theorem each_ok {A B : Type} {f : A → R B} {l : List A} {bs : List B} (h : each f l = .ok bs) : List.Forall₂ (fun a b => f a = .ok b) l bs := by
  induction l generalizing bs with
  | nil => cases h; exact .nil
  | cons a l ih =>
    unfold each at h
    cases hf : f a with
    | error e => rw [hf] at h; cases h
    | ok b =>
      rw [hf] at h
      simp only at h
      cases he : each f l with
      | error e => rw [he] at h; cases h
      | ok cs =>
        rw [he] at h
        cases h
        exact .cons hf (ih he)

theorem each_mem {A B : Type} {f : A → R B} {l : List A} {bs : List B} (h : each f l = .ok bs) : ∀ b ∈ bs, ∃ a ∈ l, f a = .ok b := by
  have h2 := each_ok h
  clear h
  induction h2 with
  | nil => intro b hb; cases hb
  | cons hab _ ih =>
    intro b hb
    rcases List.mem_cons.1 hb with rfl | hb
    · exact ⟨_, List.mem_cons_self, hab⟩
    · obtain ⟨a, ha, h⟩ := ih b hb
      exact ⟨a, List.mem_cons_of_mem _ ha, h⟩

theorem readList_mem {A : Type} {f : Doc K → R A} {d : Doc K} {l : List A} (h : readList f d = .ok l) : ∀ b ∈ l, ∃ a, f a = .ok b := by
  cases d with
  | list x => exact fun b hb => by obtain ⟨a, _, ha⟩ := each_mem h b hb; exact ⟨a, ha⟩
  | null => cases h
  | bool b => cases h
  | int i => cases h
  | float x => cases h
  | str s => cases h
  | dict d => cases h

theorem readDict_mem {A : Type} {f : Doc K → R A} {d : Doc K} {l : List (Str × A)} (h : readDict f d = .ok l) : ∀ b ∈ l, ∃ a, f a = .ok b.2 := by
  cases d with
  | dict x =>
    intro b hb
    obtain ⟨a, _, ha⟩ := each_mem h b hb
    obtain ⟨c, hc, rfl⟩ := map_ok.1 ha
    exact ⟨_, hc⟩
  | null => cases h
  | bool b => cases h
  | int i => cases h
  | float x => cases h
  | str s => cases h
  | list l => cases h

theorem opt_some {A : Type} {f : Doc K → R A} {o : Option (Doc K)} {r : Option A} (h : opt f o = .ok r) : ∀ a, r = some a → ∃ d, o = some d ∧ f d = .ok a := by
  intro a ha
  subst ha
  cases o with
  | none => cases h
  | some d =>
    refine ⟨d, rfl, ?_⟩
    cases d <;> first | (cases h) | (obtain ⟨b, hb, he⟩ := map_ok.1 h; cases he; exact hb)

theorem setting_normal {d : Doc K} {s : Setting K} (h : readSetting L d = .ok s) : SettingNormal s := by
  intro hs
  subst hs
  cases d with
  | list l =>
    unfold readSetting at h
    simp only at h
    cases l with
    | nil => cases h
    | cons a l =>
      cases he : each (readCond L) (a :: l) with
      | ok cs => rw [he] at h; cases h
      | error e =>
        rw [he] at h
        obtain ⟨ns, hn, hm⟩ := map_ok.1 h
        cases hm
        have := each_ok hn
        cases this
  | dict d => obtain ⟨c, _, hc⟩ := map_ok.1 h; cases hc
  | null => cases h
  | bool b => cases h
  | int i => cases h
  | float x => cases h
  | str s => obtain ⟨c, _, hc⟩ := map_ok.1 h; cases hc

theorem params_normal {o : Option (Doc K)} {p : Option (Params K)} (h : opt (readParams L) o = .ok p) : ParamsNormal p := by
  intro q hq e he
  obtain ⟨d, _, hd⟩ := opt_some h q hq
  obtain ⟨a, ha⟩ := readDict_mem hd e he
  exact setting_normal ha

theorem inSlice_normal {d : Doc K} {s : InSlice K} (h : readInSlice L d = .ok s) : ParamsNormal s.parameters := by
  cases d with
  | dict d =>
    obtain ⟨m, _, h⟩ := bind_ok.1 h
    obtain ⟨r, _, h⟩ := bind_ok.1 h
    obtain ⟨p, hp, h⟩ := bind_ok.1 h
    cases h
    exact params_normal hp
  | null => cases h
  | bool b => cases h
  | int i => cases h
  | float x => cases h
  | str s => cases h
  | list l => cases h

theorem inModel_normal {d : Doc K} {s : InModel K} (h : readInModel L d = .ok s) : ParamsNormal s.parameters := by
  cases d with
  | dict d =>
    obtain ⟨m, _, h⟩ := bind_ok.1 h
    obtain ⟨p, hp, h⟩ := bind_ok.1 h
    cases h
    exact params_normal hp
  | null => cases h
  | bool b => cases h
  | int i => cases h
  | float x => cases h
  | str s => cases h
  | list l => cases h

theorem outSlice_normal {d : Doc K} {s : OutSlice K} (h : readOutSlice L d = .ok s) : SliceNormal s := by
  cases d with
  | dict d =>
    obtain ⟨l, hl, h⟩ := bind_ok.1 h
    obtain ⟨b, _, h⟩ := bind_ok.1 h
    obtain ⟨w, _, h⟩ := bind_ok.1 h
    obtain ⟨p, hp, h⟩ := bind_ok.1 h
    cases h
    refine ⟨params_normal hp, fun x hx => ?_⟩
    cases hd : d.lookup cs!"sources" with
    | none => rw [hd] at hl; cases hl
    | some sd =>
      rw [hd] at hl
      obtain ⟨a, ha⟩ := readList_mem hl x hx
      exact inSlice_normal ha
  | null => cases h
  | bool b => cases h
  | int i => cases h
  | float x => cases h
  | str s => cases h
  | list l => cases h

theorem slices_normal {o : Option (Doc K)} {l : Option (List (OutSlice K))} (h : opt (readList (readOutSlice L)) o = .ok l) : ∀ s ∈ l.getD [], SliceNormal s := by
  cases l with
  | none => intro s hs; cases hs
  | some x =>
    intro s hs
    obtain ⟨d, _, hd⟩ := opt_some h x rfl
    obtain ⟨a, ha⟩ := readList_mem hd s hs
    exact outSlice_normal ha

theorem models_normal {o : Option (Doc K)} {l : Option (List (InModel K))} (h : opt (readList (readInModel L)) o = .ok l) : ∀ s ∈ l.getD [], ParamsNormal s.parameters := by
  cases l with
  | none => intro s hs; cases hs
  | some x =>
    intro s hs
    obtain ⟨d, _, hd⟩ := opt_some h x rfl
    obtain ⟨a, ha⟩ := readList_mem hd s hs
    exact inModel_normal ha

theorem outModule_normal {d : Doc K} {m : OutModule K} (h : readOutModule L d = .ok m) : ModuleNormal m := by
  cases d with
  | dict d =>
    obtain ⟨s, hs, h⟩ := bind_ok.1 h
    obtain ⟨l, hl, h⟩ := bind_ok.1 h
    obtain ⟨p, hp, h⟩ := bind_ok.1 h
    by_cases hg : (given s == given l) = true
    · rw [if_pos hg] at h; cases h
    · rw [if_neg hg] at h
      cases h
      exact ⟨slices_normal hs, models_normal hl, params_normal hp, by simpa using hg⟩
  | null => cases h
  | bool b => cases h
  | int i => cases h
  | float x => cases h
  | str s => cases h
  | list l => cases h

theorem tokenSource_normal {d : Doc K} {s : TokenSource} (h : readTokenSource L d = .ok s) : ∀ m i t, s = .modelToken m i t → i.isSome ≠ t.isSome := by
  intro m i t hs
  subst hs
  cases d with
  | dict d =>
    unfold readTokenSource at h
    simp only at h
    cases hm : readModelToken L d with
    | ok x =>
      rw [hm] at h
      cases h
      obtain ⟨_, _, hm⟩ := bind_ok.1 hm
      obtain ⟨_, _, hm⟩ := bind_ok.1 hm
      obtain ⟨_, _, hm⟩ := bind_ok.1 hm
      obtain ⟨_, _, hm⟩ := bind_ok.1 hm
      split at hm
      · rename_i hc
        cases hm
        exact hc.2
      · cases hm
    | error e =>
      rw [hm] at h
      cases e with
      | runtime => cases h
      | validation =>
        simp only at h
        have hz : ∀ z, readZero d = .ok z → z = .zero := by
          intro z hz
          obtain ⟨_, _, hz⟩ := bind_ok.1 hz
          split at hz
          · cases hz; rfl
          · cases hz
        cases hzz : readZero d with
        | ok z =>
          have := hz z hzz
          subst this
          rw [hzz] at h
          cases hr : readRef (.dict d) with
          | ok r =>
            rw [hr] at h
            simp only at h
            split at h <;> cases h
          | error e => rw [hr] at h; cases e <;> cases h
        | error e' =>
          rw [hzz] at h
          cases hr : readRef (.dict d) with
          | ok r => rw [hr] at h; cases h
          | error e => rw [hr] at h; cases e <;> cases h
  | null => cases h
  | bool b => cases h
  | int i => cases h
  | float x => cases h
  | str s => obtain ⟨c, _, hc⟩ := map_ok.1 h; cases hc
  | list l => cases h

theorem tokenConf_normal {d : Doc K} {c : TokenConf} (h : readTokenConf L d = .ok c) : TokenNormal c := by
  cases d with
  | dict d =>
    obtain ⟨s, hs, h⟩ := bind_ok.1 h
    obtain ⟨f, _, h⟩ := bind_ok.1 h
    cases h
    intro m i t he
    obtain ⟨x, _, hx⟩ := opt_some hs _ he
    exact tokenSource_normal hx m i t rfl
  | null => cases h
  | bool b => cases h
  | int i => cases h
  | float x => cases h
  | str s => cases h
  | list l => cases h

theorem tokenizer_normal {d : Doc K} {c : TokenizerConf} (h : readTokenizer L d = .ok c) : ∀ l, c.tokens = some l → ∀ e ∈ l, TokenNormal e.2 := by
  cases d with
  | dict d =>
    obtain ⟨s, hs, h⟩ := bind_ok.1 h
    obtain ⟨t, ht, h⟩ := bind_ok.1 h
    obtain ⟨p, _, h⟩ := bind_ok.1 h
    cases h
    intro l hl e he
    obtain ⟨x, _, hx⟩ := opt_some ht _ hl
    obtain ⟨a, ha⟩ := readDict_mem hx e he
    exact tokenConf_normal ha
  | null => cases h
  | bool b => cases h
  | int i => cases h
  | float x => cases h
  | str s => cases h
  | list l => cases h

theorem check_ok {c c' : Conf K} (h : check c = .ok c') : c' = c := by
  unfold check at h
  simp only at h
  split_ifs at h <;> (cases h; rfl)

theorem read_normal {d : Doc K} {c : Conf K} (h : read L d = .ok c) : Normal c := by
  cases d with
  | dict d =>
    obtain ⟨mo, hmo, h⟩ := bind_ok.1 h
    obtain ⟨sl, hsl, h⟩ := bind_ok.1 h
    obtain ⟨ms, hms, h⟩ := bind_ok.1 h
    obtain ⟨mm, _, h⟩ := bind_ok.1 h
    obtain ⟨bm, _, h⟩ := bind_ok.1 h
    obtain ⟨dt, _, h⟩ := bind_ok.1 h
    obtain ⟨ts, _, h⟩ := bind_ok.1 h
    obtain ⟨tk, htk, h⟩ := bind_ok.1 h
    obtain ⟨ct, _, h⟩ := bind_ok.1 h
    obtain ⟨od, _, h⟩ := bind_ok.1 h
    obtain ⟨pa, hpa, h⟩ := bind_ok.1 h
    have := check_ok h
    subst this
    refine ⟨?_, slices_normal hsl, models_normal hms, params_normal hpa, ?_, h⟩
    · cases mo with
      | none => intro e he; cases he
      | some l =>
        intro e he
        obtain ⟨x, _, hx⟩ := opt_some hmo _ rfl
        obtain ⟨a, ha⟩ := readDict_mem hx e he
        exact outModule_normal ha
    · intro t l ht hl
      obtain ⟨x, _, hx⟩ := opt_some htk _ ht
      exact tokenizer_normal hx l hl
  | null => cases h
  | bool b => cases h
  | int i => cases h
  | float x => cases h
  | str s => cases h
  | list l => cases h

/-! ## Reading is what the document says -/

theorem opt_iff {A : Type} {f : Doc K → R A} {P : Doc K → A → Prop} (h : ∀ d a, f d = .ok a ↔ P d a) {o : Option (Doc K)} {r : Option A} : opt f o = .ok r ↔ Maybe P o r := by
  constructor
  · intro ho
    cases o with
    | none => cases ho; exact .missing
    | some d =>
      by_cases hd : d = .null
      · subst hd; cases ho; exact .null
      · have : opt f (some d) = (f d).map some := by cases d <;> first | rfl | exact absurd rfl hd
        rw [this] at ho
        obtain ⟨a, ha, rfl⟩ := map_ok.1 ho
        exact .given hd ((h d a).1 ha)
  · intro hm
    cases hm with
    | missing => rfl
    | null => rfl
    | @given d a hd hp =>
      have : opt f (some d) = (f d).map some := by cases d <;> first | rfl | exact absurd rfl hd
      rw [this, (h d a).2 hp]
      rfl

theorem req_iff {A : Type} {f : Doc K → R A} {P : Doc K → A → Prop} (h : ∀ d a, f d = .ok a ↔ P d a) {d : List (Str × Doc K)} {k : Str} {a : A} :
    req f (d.lookup k) = .ok a ↔ Has P d k a := by
  unfold Has
  cases hd : d.lookup k with
  | none => simp [req]
  | some v => simp [req, h]

theorem each_iff {A B : Type} {f : A → R B} {P : A → B → Prop} (h : ∀ d a, f d = .ok a ↔ P d a) {l : List A} {bs : List B} : each f l = .ok bs ↔ List.Forall₂ P l bs := by
  constructor
  · intro he
    exact (each_ok he).imp (fun a b hab => (h a b).1 hab)
  · intro hf
    induction hf with
    | nil => rfl
    | cons hab _ ih =>
      unfold each
      rw [(h _ _).2 hab]
      simp only
      rw [ih]

theorem list_iff {A : Type} {f : Doc K → R A} {P : Doc K → A → Prop} (h : ∀ d a, f d = .ok a ↔ P d a) (d : Doc K) (l : List A) : readList f d = .ok l ↔ Listed P d l := by
  constructor
  · intro hr
    cases d <;> first | (cases hr) | skip
    exact .mk ((each_iff h).1 hr)
  · intro hl
    cases hl with
    | mk hf => exact (each_iff h).2 hf

theorem dict_iff {A : Type} {f : Doc K → R A} {P : Doc K → A → Prop} (h : ∀ d a, f d = .ok a ↔ P d a) (d : Doc K) (l : List (Str × A)) : readDict f d = .ok l ↔ Mapped P d l := by
  have h' : ∀ (e : Str × Doc K) (a : Str × A), (f e.2).map (fun a => (e.1, a)) = Except.ok a ↔ e.1 = a.1 ∧ P e.2 a.2 := by
    intro e a
    rw [map_ok]
    constructor
    · rintro ⟨b, hb, rfl⟩
      exact ⟨rfl, (h _ _).1 hb⟩
    · rintro ⟨h1, h2⟩
      exact ⟨a.2, (h _ _).2 h2, by rw [h1]⟩
  constructor
  · intro hr
    cases d <;> first | (cases hr) | skip
    exact .mk ((each_iff h').1 hr)
  · intro hl
    cases hl with
    | mk hf => exact (each_iff h').2 hf

theorem invalid_ok {A : Type} {o : Option A} {a : A} : orInvalid o = .ok a ↔ o = some a := by cases o <;> simp [orInvalid]
theorem runtime_ok {A E : Type} {x : Except E A} {a : A} : orRuntime x = .ok a ↔ x = .ok a := by cases x <;> simp [orRuntime]

theorem text_iff (d : Doc K) (s : Str) : readStr d = .ok s ↔ Text d s := by
  constructor
  · intro h
    cases d <;> first | (cases h; done) | (cases h; exact .mk _)
  · rintro ⟨⟩; rfl

theorem number_iff (d : Doc K) (x : K) : readFloat L d = .ok x ↔ Number L d x := by
  constructor
  · intro h
    cases d with
    | float y => cases h; exact .float _
    | int i => cases h; exact .int _
    | bool b => cases b <;> (cases h; constructor)
    | str s => exact .text (invalid_ok.1 h)
    | null => cases h
    | list l => cases h
    | dict d => cases h
  · intro h
    cases h with
    | float => rfl
    | int => rfl
    | yes => rfl
    | no => rfl
    | text h => exact invalid_ok.2 h

theorem integer_iff (d : Doc K) (x : Int) : readInt L d = .ok x ↔ Integer L d x := by
  constructor
  · intro h
    cases d with
    | float y => exact .float (invalid_ok.1 h)
    | int i => cases h; exact .int _
    | bool b => cases b <;> (cases h; constructor)
    | str s => exact .text (invalid_ok.1 h)
    | null => cases h
    | list l => cases h
    | dict d => cases h
  · intro h
    cases h with
    | float h => exact invalid_ok.2 h
    | int => rfl
    | yes => rfl
    | no => rfl
    | text h => exact invalid_ok.2 h

theorem path_iff (d : Doc K) (p : ModelPath) : readPath d = .ok p ↔ PathSays d p := by
  constructor
  · intro h
    cases d with
    | str s => exact .text (runtime_ok.1 h)
    | dict d =>
      obtain ⟨p, hp, h⟩ := bind_ok.1 h
      obtain ⟨r, hr, h⟩ := bind_ok.1 h
      cases h
      exact .fields ((req_iff text_iff).1 hp) ((opt_iff text_iff).1 hr)
    | null => cases h
    | bool b => cases h
    | int i => cases h
    | float x => cases h
    | list l => cases h
  · intro h
    cases h with
    | text h => exact runtime_ok.2 h
    | fields hp hr => exact bind_ok.2 ⟨_, (req_iff text_iff).2 hp, bind_ok.2 ⟨_, (opt_iff text_iff).2 hr, rfl⟩⟩

theorem ref_iff (d : Doc K) (p : Ref) : readRef d = .ok p ↔ RefSays d p := by
  constructor
  · intro h
    cases d with
    | str s => exact .text (runtime_ok.1 h)
    | dict d =>
      obtain ⟨p, hp, h⟩ := bind_ok.1 h
      obtain ⟨l, hl, h⟩ := bind_ok.1 h
      obtain ⟨r, hr, h⟩ := bind_ok.1 h
      cases h
      exact .fields ((req_iff path_iff).1 hp) ((opt_iff path_iff).1 hl) ((opt_iff text_iff).1 hr)
    | null => cases h
    | bool b => cases h
    | int i => cases h
    | float x => cases h
    | list l => cases h
  · intro h
    cases h with
    | text h => exact runtime_ok.2 h
    | fields hp hl hr => exact bind_ok.2 ⟨_, (req_iff path_iff).2 hp, bind_ok.2 ⟨_, (opt_iff path_iff).2 hl, bind_ok.2 ⟨_, (opt_iff text_iff).2 hr, rfl⟩⟩⟩

theorem numbers_iff (d : Doc K) (n : Num K) : readNum L d = .ok n ↔ Numbers L d n := by
  constructor
  · intro h
    cases d with
    | list l =>
      obtain ⟨xs, hx, rfl⟩ := map_ok.1 h
      exact .many ((each_iff number_iff).1 hx)
    | null => cases h
    | dict d => cases h
    | bool b => cases b <;> (cases h; exact .one (by constructor))
    | int i => cases h; exact .one (by constructor)
    | float x => cases h; exact .one (by constructor)
    | str s =>
      obtain ⟨x, hx, rfl⟩ := map_ok.1 h
      exact .one (.text (invalid_ok.1 hx))
  · intro h
    cases h with
    | one h =>
      cases h with
      | float => rfl
      | int => rfl
      | yes => rfl
      | no => rfl
      | text h => exact map_ok.2 ⟨_, invalid_ok.2 h, rfl⟩
    | many h => exact map_ok.2 ⟨_, (each_iff number_iff).2 h, rfl⟩

theorem cond_iff (d : Doc K) (c : Cond K) : readCond L d = .ok c ↔ Conditional L d c := by
  constructor
  · intro h
    cases d with
    | dict d =>
      obtain ⟨p, hp, h⟩ := bind_ok.1 h
      obtain ⟨r, hr, h⟩ := bind_ok.1 h
      cases h
      exact .mk ((req_iff numbers_iff).1 hp) ((opt_iff text_iff).1 hr)
    | null => cases h
    | bool b => cases h
    | int i => cases h
    | float x => cases h
    | list l => cases h
    | str s => cases h
  · intro h
    cases h with
    | mk hp hr => exact bind_ok.2 ⟨_, (req_iff numbers_iff).2 hp, bind_ok.2 ⟨_, (opt_iff text_iff).2 hr, rfl⟩⟩

theorem setting_iff (d : Doc K) (s : Setting K) : readSetting L d = .ok s ↔ Says L d s := by
  constructor
  · intro h
    cases d with
    | list l =>
      unfold readSetting at h
      simp only at h
      cases he : each (readCond L) l with
      | ok cs =>
        rw [he] at h
        cases h
        exact .conds ((each_iff cond_iff).1 he)
      | error e =>
        rw [he] at h
        obtain ⟨xs, hx, rfl⟩ := map_ok.1 h
        refine .many ?_ ((each_iff number_iff).1 hx)
        rintro rfl
        cases he
    | null => cases h
    | dict d =>
      obtain ⟨c, hc, rfl⟩ := map_ok.1 h
      exact .cond ((cond_iff _ _).1 hc)
    | bool b => cases b <;> (cases h; exact .one (by constructor))
    | int i => cases h; exact .one (by constructor)
    | float x => cases h; exact .one (by constructor)
    | str s =>
      obtain ⟨x, hx, rfl⟩ := map_ok.1 h
      exact .one (.text (invalid_ok.1 hx))
  · intro h
    cases h with
    | one h =>
      cases h with
      | float => rfl
      | int => rfl
      | yes => rfl
      | no => rfl
      | text h => exact map_ok.2 ⟨_, invalid_ok.2 h, rfl⟩
    | @many l xs hl h =>
      have he : ∃ e, each (readCond L) l = .error e := by
        cases h with
        | nil => exact absurd rfl hl
        | cons hx _ =>
          unfold each
          cases hx <;> exact ⟨_, rfl⟩
      obtain ⟨e, he⟩ := he
      unfold readSetting
      simp only
      rw [he]
      exact map_ok.2 ⟨_, (each_iff number_iff).2 h, rfl⟩
    | @cond d c h =>
      have := (cond_iff _ _).2 h
      cases h
      exact map_ok.2 ⟨_, this, rfl⟩
    | conds h =>
      unfold readSetting
      simp only
      rw [(each_iff cond_iff).2 h]

theorem params_iff (d : Doc K) (p : Params K) : readParams L d = .ok p ↔ Mapped (Says L) d p := dict_iff setting_iff d p

theorem source_iff (d : Doc K) (s : InSlice K) : readInSlice L d = .ok s ↔ SourceSays L d s := by
  constructor
  · intro h
    cases d with
    | dict d =>
      obtain ⟨m, hm, h⟩ := bind_ok.1 h
      obtain ⟨r, hr, h⟩ := bind_ok.1 h
      obtain ⟨p, hp, h⟩ := bind_ok.1 h
      cases h
      cases hl : d.lookup cs!"layer_range" with
      | none => rw [hl] at hr; cases hr
      | some v =>
        rw [hl] at hr
        change readRange L v = _ at hr
        unfold readRange at hr
        split at hr
        · obtain ⟨x, hx, hr⟩ := bind_ok.1 hr
          obtain ⟨y, hy, hr⟩ := bind_ok.1 hr
          cases hr
          exact .mk ((req_iff ref_iff).1 hm) hl ((integer_iff _ _).1 hx) ((integer_iff _ _).1 hy) ((opt_iff params_iff).1 hp)
        · cases hr
    | null => cases h
    | bool b => cases h
    | int i => cases h
    | float x => cases h
    | list l => cases h
    | str s => cases h
  · intro h
    cases h with
    | mk hm hl hx hy hp =>
      refine bind_ok.2 ⟨_, (req_iff ref_iff).2 hm, bind_ok.2 ⟨(_, _), ?_, bind_ok.2 ⟨_, (opt_iff params_iff).2 hp, rfl⟩⟩⟩
      rw [hl]
      exact bind_ok.2 ⟨_, (integer_iff _ _).2 hx, bind_ok.2 ⟨_, (integer_iff _ _).2 hy, rfl⟩⟩

theorem model_iff (d : Doc K) (s : InModel K) : readInModel L d = .ok s ↔ ModelSays L d s := by
  constructor
  · intro h
    cases d with
    | dict d =>
      obtain ⟨m, hm, h⟩ := bind_ok.1 h
      obtain ⟨p, hp, h⟩ := bind_ok.1 h
      cases h
      exact .mk ((req_iff ref_iff).1 hm) ((opt_iff params_iff).1 hp)
    | null => cases h
    | bool b => cases h
    | int i => cases h
    | float x => cases h
    | list l => cases h
    | str s => cases h
  · intro h
    cases h with
    | mk hm hp => exact bind_ok.2 ⟨_, (req_iff ref_iff).2 hm, bind_ok.2 ⟨_, (opt_iff params_iff).2 hp, rfl⟩⟩

theorem slice_iff (d : Doc K) (s : OutSlice K) : readOutSlice L d = .ok s ↔ SliceSays L d s := by
  constructor
  · intro h
    cases d with
    | dict d =>
      obtain ⟨m, hm, h⟩ := bind_ok.1 h
      obtain ⟨b, hb, h⟩ := bind_ok.1 h
      obtain ⟨w, hw, h⟩ := bind_ok.1 h
      obtain ⟨p, hp, h⟩ := bind_ok.1 h
      cases h
      exact .mk ((req_iff (list_iff source_iff)).1 hm) ((opt_iff ref_iff).1 hb) ((opt_iff number_iff).1 hw) ((opt_iff params_iff).1 hp)
    | null => cases h
    | bool b => cases h
    | int i => cases h
    | float x => cases h
    | list l => cases h
    | str s => cases h
  · intro h
    cases h with
    | mk hm hb hw hp =>
      exact bind_ok.2 ⟨_, (req_iff (list_iff source_iff)).2 hm, bind_ok.2 ⟨_, (opt_iff ref_iff).2 hb, bind_ok.2 ⟨_, (opt_iff number_iff).2 hw,
        bind_ok.2 ⟨_, (opt_iff params_iff).2 hp, rfl⟩⟩⟩⟩

theorem given_iff {A : Type} {l : Option (List A)} : given l = true ↔ Filled l := by
  unfold Filled
  cases l with
  | none => simp [given]
  | some l => cases l <;> simp [given]

theorem module_iff (d : Doc K) (m : OutModule K) : readOutModule L d = .ok m ↔ ModuleSays L d m := by
  constructor
  · intro h
    cases d with
    | dict d =>
      obtain ⟨s, hs, h⟩ := bind_ok.1 h
      obtain ⟨l, hl, h⟩ := bind_ok.1 h
      obtain ⟨p, hp, h⟩ := bind_ok.1 h
      by_cases hg : (given s == given l) = true
      · rw [if_pos hg] at h; cases h
      · rw [if_neg hg] at h
        cases h
        refine .mk ((opt_iff (list_iff slice_iff)).1 hs) ((opt_iff (list_iff model_iff)).1 hl) ((opt_iff params_iff).1 hp) ?_
        rw [← given_iff, ← given_iff]
        revert hg
        cases given s <;> cases given l <;> simp
    | null => cases h
    | bool b => cases h
    | int i => cases h
    | float x => cases h
    | list l => cases h
    | str s => cases h
  · intro h
    cases h with
    | @mk d s m p hs hm hp hg =>
      refine bind_ok.2 ⟨_, (opt_iff (list_iff slice_iff)).2 hs, bind_ok.2 ⟨_, (opt_iff (list_iff model_iff)).2 hm, bind_ok.2 ⟨_, (opt_iff params_iff).2 hp, ?_⟩⟩⟩
      rw [if_neg]
      rw [← given_iff, ← given_iff] at hg
      revert hg
      cases given s <;> cases given m <;> simp

theorem modelToken_iff (d : List (Str × Doc K)) (s : TokenSource) : readModelToken L d = .ok s ↔ ModelToken L (.dict d) s := by
  constructor
  · intro h
    obtain ⟨k, hk, h⟩ := bind_ok.1 h
    obtain ⟨m, hm, h⟩ := bind_ok.1 h
    obtain ⟨i, hi, h⟩ := bind_ok.1 h
    obtain ⟨t, ht, h⟩ := bind_ok.1 h
    split at h
    · rename_i hc
      cases h
      obtain ⟨rfl, hc⟩ := hc
      refine .mk ((req_iff text_iff).1 hk) ((req_iff ref_iff).1 hm) ((opt_iff integer_iff).1 hi) ((opt_iff text_iff).1 ht) ?_
      revert hc
      cases i.isSome <;> cases t.isSome <;> simp
    · cases h
  · intro h
    cases h with
    | @mk _ m i t hk hm hi ht hc =>
      refine bind_ok.2 ⟨_, (req_iff text_iff).2 hk, bind_ok.2 ⟨_, (req_iff ref_iff).2 hm, bind_ok.2 ⟨_, (opt_iff integer_iff).2 hi, bind_ok.2 ⟨_, (opt_iff text_iff).2 ht, ?_⟩⟩⟩⟩
      rw [if_pos]
      refine ⟨rfl, ?_⟩
      revert hc
      cases i.isSome <;> cases t.isSome <;> simp

theorem tokenSource_says {d : Doc K} {s : TokenSource} (h : readTokenSource L d = .ok s) : TokenSays L d s := by
  cases d with
  | dict d =>
    unfold readTokenSource at h
    simp only at h
    cases hm : readModelToken L d with
    | ok x =>
      rw [hm] at h
      cases h
      exact .token ((modelToken_iff _ _).1 hm)
    | error e =>
      have hno : ∀ s, ¬ ModelToken L (.dict d) s := by
        intro s hs
        rw [(modelToken_iff d s).2 hs] at hm
        cases hm
      rw [hm] at h
      cases e with
      | runtime => cases h
      | validation =>
        simp only at h
        have hz : ∀ z, readZero d = .ok z → z = .zero ∧ Has Text d cs!"kind" cs!"zero" := by
          intro z hz
          obtain ⟨k, hk, hz⟩ := bind_ok.1 hz
          split at hz
          · rename_i hk0
            subst hk0
            cases hz
            exact ⟨rfl, (req_iff text_iff).1 hk⟩
          · cases hz
        cases hzz : readZero d with
        | ok z =>
          obtain ⟨rfl, hk⟩ := hz z hzz
          rw [hzz] at h
          cases hr : readRef (.dict d) with
          | ok r =>
            rw [hr] at h
            simp only at h
            split at h <;> cases h
            · exact .ref ((ref_iff _ _).1 hr) hno
            · exact .zero hk
          | error e =>
            rw [hr] at h
            cases e <;> cases h
            exact .zero hk
        | error e' =>
          rw [hzz] at h
          cases hr : readRef (.dict d) with
          | ok r => rw [hr] at h; cases h; exact .ref ((ref_iff _ _).1 hr) hno
          | error e => rw [hr] at h; cases e <;> cases h
  | null => cases h
  | bool b => cases h
  | int i => cases h
  | float x => cases h
  | str s =>
    obtain ⟨r, hr, rfl⟩ := map_ok.1 h
    exact .ref ((ref_iff _ _).1 hr) (fun s hs => by cases hs)
  | list l => cases h

theorem flag_iff (d : Doc K) (b : Bool) : readBool L d = .ok b ↔ Flag L d b := by
  constructor
  · intro h
    cases d with
    | bool b => cases h; exact .flag _
    | int i =>
      unfold readBool at h
      simp only at h
      split at h
      · rename_i hi; subst hi; cases h; exact .zero
      · split at h
        · rename_i hi; subst hi; cases h; exact .one
        · cases h
    | float x =>
      unfold readBool at h
      simp only at h
      split at h
      · rename_i hx; cases h; exact .fzero hx
      · rename_i hx; cases h; exact .fone hx
      · cases h
    | str s => exact .text (invalid_ok.1 h)
    | null => cases h
    | list l => cases h
    | dict d => cases h
  · intro h
    cases h with
    | flag => rfl
    | one => rfl
    | zero => rfl
    | fone h => unfold readBool; simp only; rw [h]; rfl
    | fzero h => unfold readBool; simp only; rw [h]; rfl
    | text h => exact invalid_ok.2 h

theorem vocab_iff (d : Doc K) (v : VocabSource) : readVocabSource d = .ok v ↔ VocabSays d v := by
  constructor
  · intro h
    unfold readVocabSource at h
    split at h
    · rename_i s
      split at h
      · rename_i hs; subst hs; cases h; exact .union
      · split at h
        · rename_i hs; subst hs; cases h; exact .base
        · rename_i h1 h2
          obtain ⟨r, hr, rfl⟩ := map_ok.1 h
          refine .ref ?_ ((ref_iff _ _).1 hr)
          intro s' hs'
          cases hs'
          exact ⟨h1, h2⟩
    · rename_i hd
      obtain ⟨r, hr, rfl⟩ := map_ok.1 h
      exact .ref (fun s hs => absurd hs (hd s)) ((ref_iff _ _).1 hr)
  · intro h
    cases h with
    | union => rfl
    | base => rfl
    | @ref d r hn hr =>
      have := (ref_iff _ _).2 hr
      cases d with
      | str s =>
        obtain ⟨h1, h2⟩ := hn s rfl
        unfold readVocabSource
        simp only
        rw [if_neg h1, if_neg h2]
        exact map_ok.2 ⟨_, this, rfl⟩
      | dict d => exact map_ok.2 ⟨_, this, rfl⟩
      | null => cases this
      | bool b => cases this
      | int i => cases this
      | float x => cases this
      | list l => cases this

theorem opt_says {A : Type} {f : Doc K → R A} {P : Doc K → A → Prop} (h : ∀ d a, f d = .ok a → P d a) {o : Option (Doc K)} {r : Option A} (ho : opt f o = .ok r) : Maybe P o r := by
  have := (opt_iff (f := f) (P := fun d a => f d = .ok a) (fun _ _ => Iff.rfl)).1 ho
  cases this with
  | missing => exact .missing
  | null => exact .null
  | given hd hp => exact .given hd (h _ _ hp)

theorem deflt_says {A : Type} {a : A} {f : Doc K → R A} {P : Doc K → A → Prop} (h : ∀ d a, f d = .ok a → P d a) {o : Option (Doc K)} {r : A} (ho : deflt a f o = .ok r) : Default a P o r := by
  cases o with
  | none => cases ho; exact .missing
  | some d => exact .given (h _ _ ho)

theorem tokenConf_says {d : Doc K} {c : TokenConf} (h : readTokenConf L d = .ok c) : TokenConfSays L d c := by
  cases d with
  | dict d =>
    obtain ⟨s, hs, h⟩ := bind_ok.1 h
    obtain ⟨f, hf, h⟩ := bind_ok.1 h
    cases h
    exact .mk (opt_says (fun _ _ => tokenSource_says) hs) (deflt_says (fun d b => (flag_iff d b).1) hf)
  | null => cases h
  | bool b => cases h
  | int i => cases h
  | float x => cases h
  | list l => cases h
  | str s => cases h

theorem tokenizer_says {d : Doc K} {c : TokenizerConf} (h : readTokenizer L d = .ok c) : TokenizerSays L d c := by
  cases d with
  | dict d =>
    obtain ⟨s, hs, h⟩ := bind_ok.1 h
    obtain ⟨t, ht, h⟩ := bind_ok.1 h
    obtain ⟨p, hp, h⟩ := bind_ok.1 h
    cases h
    refine .mk (deflt_says (fun d b => (vocab_iff d b).1) hs) (opt_says ?_ ht) ((opt_iff integer_iff).1 hp)
    intro d l hl
    have := (dict_iff (f := readTokenConf L) (P := fun d a => readTokenConf L d = .ok a) (fun _ _ => Iff.rfl) d l).1 hl
    cases this with
    | mk h => exact .mk (h.imp (fun e a hea => ⟨hea.1, tokenConf_says hea.2⟩))
  | null => cases h
  | bool b => cases h
  | int i => cases h
  | float x => cases h
  | list l => cases h
  | str s => cases h

/-- A token's source is of one form only: a reference, a model's token, or nothing but zeros. -/
def Plain (L : Lib K) (d : List (Str × Doc K)) : Prop :=
  d.lookup cs!"kind" = none ∨ (∃ s, ModelToken L (.dict d) s) ∨ Has Text d cs!"kind" cs!"zero" ∧ d.lookup cs!"model" = none

/-- All sources of tokens in the document are. -/
def PlainTokens (L : Lib K) (d : List (Str × Doc K)) : Prop :=
  ∀ t ts, d.lookup cs!"tokenizer" = some (.dict t) → t.lookup cs!"tokens" = some (.dict ts) → ∀ e ∈ ts, ∀ c src, e.2 = .dict c → c.lookup cs!"source" = some (.dict src) → Plain L src

theorem tokenSource_read {d : Doc K} {s : TokenSource} (h : TokenSays L d s) (hp : ∀ src, d = .dict src → Plain L src) : readTokenSource L d = .ok s := by
  cases h with
  | token h =>
    cases h with
    | mk h1 h2 h3 h4 h5 =>
      unfold readTokenSource
      simp only
      rw [(modelToken_iff _ _).2 (.mk h1 h2 h3 h4 h5)]
  | @zero d hk =>
    obtain ⟨v, hv, ht⟩ := hk
    cases ht
    rcases hp d rfl with h | ⟨s, h⟩ | ⟨-, h⟩
    · rw [h] at hv; cases hv
    · cases h with
      | mk h1 h2 h3 h4 h5 =>
        obtain ⟨v', hv', ht'⟩ := h1
        rw [hv] at hv'
        cases hv'
        cases ht'
    · have h1 : readModelToken L d = .error .validation := by
        unfold readModelToken
        rw [hv, h]
        rfl
      have h2 : readZero d = .ok .zero := by
        unfold readZero
        rw [hv]
        rfl
      have h3 : readRef (.dict d) = .error .validation := by
        unfold readRef
        simp only
        rw [h]
        rfl
      unfold readTokenSource
      simp only
      rw [h1, h2, h3]
  | @ref d r hr hno =>
    have hr' := (ref_iff _ _).2 hr
    cases d with
    | str s => exact map_ok.2 ⟨_, hr', rfl⟩
    | dict d =>
      rcases hp d rfl with h | ⟨s, h⟩ | ⟨-, h⟩
      · have h1 : readModelToken L d = .error .validation := by
          unfold readModelToken
          rw [h]
          rfl
        have h2 : readZero d = .error .validation := by
          unfold readZero
          rw [h]
          rfl
        unfold readTokenSource
        simp only
        rw [h1, h2, hr']
      · exact absurd h (hno s)
      · unfold readRef at hr'
        simp only at hr'
        rw [h] at hr'
        cases hr'
    | null => cases hr
    | bool b => cases hr
    | int i => cases hr
    | float x => cases hr
    | list l => cases hr

theorem opt_read {A : Type} {f : Doc K → R A} {P : Doc K → A → Prop} {o : Option (Doc K)} {r : Option A} (h : ∀ d a, o = some d → P d a → f d = .ok a) (ho : Maybe P o r) : opt f o = .ok r := by
  cases ho with
  | missing => rfl
  | null => rfl
  | @given d a hd hp =>
    have : opt f (some d) = (f d).map some := by cases d <;> first | rfl | exact absurd rfl hd
    rw [this, h d a rfl hp]
    rfl

theorem deflt_read {A : Type} {a : A} {f : Doc K → R A} {P : Doc K → A → Prop} {o : Option (Doc K)} {r : A} (h : ∀ d a, P d a → f d = .ok a) (ho : Default a P o r) : deflt a f o = .ok r := by
  cases ho with
  | missing => rfl
  | given hp => exact h _ _ hp

theorem tokenConf_read {d : Doc K} {c : TokenConf} (h : TokenConfSays L d c) (hp : ∀ e src, d = .dict e → e.lookup cs!"source" = some (.dict src) → Plain L src) : readTokenConf L d = .ok c := by
  cases h with
  | mk hs hf =>
    refine bind_ok.2 ⟨_, opt_read ?_ hs, bind_ok.2 ⟨_, deflt_read (fun d b => (flag_iff d b).2) hf, rfl⟩⟩
    intro d a ho ha
    exact tokenSource_read ha (fun src hsrc => hp _ src rfl (by rw [ho, hsrc]))

theorem tokens_read {d : List (Str × Doc K)} {l : List (Str × TokenConf)} (h : List.Forall₂ (fun e a => e.1 = a.1 ∧ TokenConfSays L e.2 a.2) d l)
    (hp : ∀ e ∈ d, ∀ c src, e.2 = .dict c → c.lookup cs!"source" = some (.dict src) → Plain L src) : readDict (readTokenConf L) (.dict d) = .ok l := by
  refine (dict_iff (f := readTokenConf L) (P := fun d a => readTokenConf L d = .ok a) (fun _ _ => Iff.rfl) _ _).2 (.mk ?_)
  induction h with
  | nil => exact .nil
  | cons h1 _ ih => exact .cons ⟨h1.1, tokenConf_read h1.2 (hp _ List.mem_cons_self)⟩ (ih (fun e he => hp e (List.mem_cons_of_mem _ he)))

theorem tokenizer_read {d : Doc K} {c : TokenizerConf} (h : TokenizerSays L d c)
    (hp : ∀ t ts, d = .dict t → t.lookup cs!"tokens" = some (.dict ts) → ∀ e ∈ ts, ∀ c src, e.2 = .dict c → c.lookup cs!"source" = some (.dict src) → Plain L src) : readTokenizer L d = .ok c := by
  cases h with
  | mk hs ht hpad =>
    refine bind_ok.2 ⟨_, deflt_read (fun d b => (vocab_iff d b).2) hs, bind_ok.2 ⟨_, opt_read ?_ ht, bind_ok.2 ⟨_, (opt_iff integer_iff).2 hpad, rfl⟩⟩⟩
    intro x a hx ha
    cases ha with
    | mk hf => exact tokens_read hf (hp _ _ rfl hx)

theorem check_iff {c c' : Conf K} : check c = .ok c' ↔ c' = c ∧ ((Filled c.modules ∧ ¬ Filled c.slices ∧ ¬ Filled c.models) ∨
    (¬ Filled c.modules ∧ Filled c.slices ∧ ¬ Filled c.models) ∨ (¬ Filled c.modules ∧ ¬ Filled c.slices ∧ Filled c.models)) ∧ (c.tokenizerSource = none ∨ c.tokenizer = none) := by
  simp only [← given_iff]
  unfold check
  simp only
  cases h1 : given c.modules <;> cases h2 : given c.slices <;> cases h3 : given c.models <;> cases h4 : c.tokenizerSource <;> cases h5 : c.tokenizer <;> simp <;> exact eq_comm

/-! ## The claims -/

/-- **C130** A configuration that is read from a document is what the document says, field by field, with its inputs given in exactly one way. -/
theorem C130_reads {d : List (Str × Doc K)} {c : Conf K} (h : read L (.dict d) = .ok c) : ConfSays L d c := by
  obtain ⟨mo, hmo, h⟩ := bind_ok.1 h
  obtain ⟨sl, hsl, h⟩ := bind_ok.1 h
  obtain ⟨ms, hms, h⟩ := bind_ok.1 h
  obtain ⟨mm, hmm, h⟩ := bind_ok.1 h
  obtain ⟨bm, hbm, h⟩ := bind_ok.1 h
  obtain ⟨dt, hdt, h⟩ := bind_ok.1 h
  obtain ⟨ts, hts, h⟩ := bind_ok.1 h
  obtain ⟨tk, htk, h⟩ := bind_ok.1 h
  obtain ⟨ct, hct, h⟩ := bind_ok.1 h
  obtain ⟨od, hod, h⟩ := bind_ok.1 h
  obtain ⟨pa, hpa, h⟩ := bind_ok.1 h
  obtain ⟨rfl, h1, h2⟩ := check_iff.1 h
  exact ⟨(opt_iff (dict_iff module_iff)).1 hmo, (opt_iff (list_iff slice_iff)).1 hsl, (opt_iff (list_iff model_iff)).1 hms, (req_iff text_iff).1 hmm, (opt_iff ref_iff).1 hbm,
    (opt_iff text_iff).1 hdt, (opt_iff vocab_iff).1 hts, opt_says (fun _ _ => tokenizer_says) htk, (opt_iff text_iff).1 hct, (opt_iff text_iff).1 hod, (opt_iff params_iff).1 hpa, h1, h2⟩

/-- **C130** Every document that says a configuration, with sources of tokens in one form each, is read. -/
theorem C130_accepts {d : List (Str × Doc K)} {c : Conf K} (hp : PlainTokens L d) (h : ConfSays L d c) : read L (.dict d) = .ok c := by
  refine bind_ok.2 ⟨_, (opt_iff (dict_iff module_iff)).2 h.modules, bind_ok.2 ⟨_, (opt_iff (list_iff slice_iff)).2 h.slices, bind_ok.2 ⟨_, (opt_iff (list_iff model_iff)).2 h.models,
    bind_ok.2 ⟨_, (req_iff text_iff).2 h.mergeMethod, bind_ok.2 ⟨_, (opt_iff ref_iff).2 h.baseModel, bind_ok.2 ⟨_, (opt_iff text_iff).2 h.dtype,
    bind_ok.2 ⟨_, (opt_iff vocab_iff).2 h.tokenizerSource, bind_ok.2 ⟨_, opt_read ?_ h.tokenizer, bind_ok.2 ⟨_, (opt_iff text_iff).2 h.chatTemplate,
    bind_ok.2 ⟨_, (opt_iff text_iff).2 h.outDtype, bind_ok.2 ⟨_, (opt_iff params_iff).2 h.parameters, check_iff.2 ⟨rfl, h.one, h.tokenizers⟩⟩⟩⟩⟩⟩⟩⟩⟩⟩⟩⟩
  intro x a hx ha
  exact tokenizer_read ha (fun t ts ht hts => hp t ts (by rw [hx, ht]) hts)

theorem PlainTokens.none {d : List (Str × Doc K)} (h : d.lookup cs!"tokenizer" = none) : PlainTokens L d := by
  intro t ts ht
  rw [h] at ht
  cases ht

/-- **C130** Writing a configuration that was read and reading the result gives the configuration again, whether or not defaults are written. -/
theorem C130_round_trip {d : Doc K} {c : Conf K} (h : read L d = .ok c) (hr : ∀ r ∈ c.refs, Writable r) (hw : ∀ r ∈ c.vocabs, NotWord r) (full : Bool) :
    read L (dump full c) = .ok c := conf_again full (read_normal h) hr hw

theorem truthy_map {A B : Type} (f : A → B) (l : Option (List A)) : Config.truthy (l.map (List.map f)) = given l := by
  cases l with
  | none => rfl
  | some l => cases l <;> rfl

/-- **C130** What is read is a configuration the rest of the program is made for. -/
theorem C130_valid {d : Doc K} {c : Conf K} (h : read L d = .ok c) : c.toConfig.valid = true := by
  have hn := read_normal h
  obtain ⟨_, h1, h2⟩ := check_iff.1 hn.check
  simp only [← given_iff] at h1
  unfold Config.MergeConfig.valid Config.MergeConfig.validModules Config.MergeConfig.validInputs Config.MergeConfig.validTokenizer
  simp only [Conf.toConfig, truthy_map, Bool.and_eq_true]
  refine ⟨⟨?_, ?_⟩, ?_⟩
  · cases hm : c.modules with
    | none => rfl
    | some l =>
      simp only [Option.map_some, List.all_map, List.all_eq_true]
      intro e he
      have := (hn.modules e (by rw [hm]; exact he)).one
      simp only [Function.comp, Config.OutModule.valid, OutModule.toConfig, truthy_map]
      revert this
      cases given e.2.slices <;> cases given e.2.models <;> simp
  · revert h1
    cases given c.modules <;> cases given c.slices <;> cases given c.models <;> simp
  · rcases h2 with h2 | h2 <;> rw [h2] <;> simp

/-- The keys that are looked at. -/
def known : List Str := [cs!"modules", cs!"slices", cs!"models", cs!"merge_method", cs!"base_model", cs!"dtype", cs!"tokenizer_source", cs!"tokenizer", cs!"chat_template",
  cs!"out_dtype", cs!"parameters"]

/-- **C130** All other keys are ignored without a word, so that a misspelt key has no effect; and the order of the keys does not matter. -/
theorem C130_unknown_keys {d d' : List (Str × Doc K)} (h : ∀ k ∈ known, d.lookup k = d'.lookup k) : read L (.dict d) = read L (.dict d') := by
  simp only [known, List.forall_mem_cons] at h
  obtain ⟨h1, h2, h3, h4, h5, h6, h7, h8, h9, h10, h11, -⟩ := h
  unfold read
  simp only [h1, h2, h3, h4, h5, h6, h7, h8, h9, h10, h11]

/-- **C130** A token taken from a model without saying which one (or saying it twice) is not refused, though there is a check for that: the source is taken to be the model. -/
theorem C130_token_unchecked (a b t : Str) {ra rb : Ref} {p : ModelPath} (ha : ModelRef.parse a = .ok ra) (hb : ModelRef.parse b = .ok rb) (hp : ModelRef.parsePath b = .ok p) :
    read L (.dict [(cs!"merge_method", .str cs!"linear"), (cs!"models", .list [.dict [(cs!"model", .str a)]]), (cs!"tokenizer", .dict [(cs!"tokens",
      .dict [(t, .dict [(cs!"source", .dict [(cs!"kind", .str cs!"model_token"), (cs!"model", .str b)])])])])]) =
      .ok { mergeMethod := cs!"linear", models := some [⟨ra, none⟩], tokenizer := some ⟨.union, some [(t, ⟨some (.ref ⟨p, none, none⟩), false⟩)], none⟩ } := by
  have h1 : readRef (.str b : Doc K) = .ok rb := runtime_ok.2 hb
  have h2 : readRef (.str a : Doc K) = .ok ra := runtime_ok.2 ha
  have h3 : readPath (.str b : Doc K) = .ok p := runtime_ok.2 hp
  have hm : readModelToken L [(cs!"kind", .str cs!"model_token"), (cs!"model", .str b)] = .error .validation := by
    unfold readModelToken
    simp [List.lookup_cons, req, readStr_dump, h1, opt, bind, Except.bind]
  have hz : readZero [(cs!"kind", .str cs!"model_token"), (cs!"model", (.str b : Doc K))] = .error .validation := rfl
  have hr : readRef (.dict [(cs!"kind", .str cs!"model_token"), (cs!"model", (.str b : Doc K))]) = .ok ⟨p, none, none⟩ := by
    unfold readRef
    simp [List.lookup_cons, req, h3, opt, bind, Except.bind]
  have ht : readTokenSource L (.dict [(cs!"kind", .str cs!"model_token"), (cs!"model", .str b)]) = .ok (.ref ⟨p, none, none⟩) := by
    unfold readTokenSource
    simp only
    rw [hm, hz, hr]
  have ht' : opt (readTokenSource L) (some (.dict [(cs!"kind", .str cs!"model_token"), (cs!"model", .str b)])) = .ok (some (.ref ⟨p, none, none⟩)) := map_ok.2 ⟨_, ht, rfl⟩
  have htc : readTokenConf L (.dict [(cs!"source", .dict [(cs!"kind", .str cs!"model_token"), (cs!"model", .str b)])]) = .ok ⟨some (.ref ⟨p, none, none⟩), false⟩ :=
    bind_ok.2 ⟨_, ht', rfl⟩
  have htk : opt (readTokenizer L) (some (.dict [(cs!"tokens", .dict [(t, .dict [(cs!"source", .dict [(cs!"kind", .str cs!"model_token"), (cs!"model", .str b)])])])])) =
      .ok (some ⟨.union, some [(t, ⟨some (.ref ⟨p, none, none⟩), false⟩)], none⟩) := by
    refine map_ok.2 ⟨_, bind_ok.2 ⟨.union, rfl, bind_ok.2 ⟨_, map_ok.2 ⟨[(t, _)], ?_, rfl⟩, rfl⟩⟩, rfl⟩
    exact (each_iff (P := fun e a => (readTokenConf L e.2).map (fun x => (e.1, x)) = Except.ok a) (fun _ _ => Iff.rfl)).2 (.cons (map_ok.2 ⟨_, htc, rfl⟩) .nil)
  have hms : opt (readList (readInModel L)) (some (.list [.dict [(cs!"model", .str a)]])) = .ok (some [⟨ra, none⟩]) := by
    refine map_ok.2 ⟨_, (each_iff (f := readInModel L) model_iff).2 (.cons (.mk ⟨_, rfl, (ref_iff _ _).1 h2⟩ .missing) .nil), rfl⟩
  exact bind_ok.2 ⟨none, rfl, bind_ok.2 ⟨none, rfl, bind_ok.2 ⟨_, hms, bind_ok.2 ⟨_, rfl, bind_ok.2 ⟨none, rfl, bind_ok.2 ⟨none, rfl, bind_ok.2 ⟨none, rfl,
    bind_ok.2 ⟨_, htk, bind_ok.2 ⟨none, rfl, bind_ok.2 ⟨none, rfl, bind_ok.2 ⟨none, rfl, rfl⟩⟩⟩⟩⟩⟩⟩⟩⟩⟩⟩

/-- **C130** A conditional value that is not in a list is read, but every use of it raises. -/
theorem C130_single_condition {F : Type} [Field F] [LinearOrder F] [FloorRing F] {L : Lib F} {d : List (Str × Doc F)} {s : Setting F}
    (h : readSetting L (.dict d) = .ok s) (name : Option Str) (t : F) : Config.evaluateSetting name s.toConfig t = .error .unexpected := by
  obtain ⟨c, _, rfl⟩ := map_ok.1 h
  rfl

/-- **C130** A model called `union` can be given as the tokenizer's source by its fields, but after writing and reading the source is the union. -/
theorem C130_model_named_union :
    ∃ (d : Doc ℚ) (c c' : Conf ℚ), (∀ L, read L d = .ok c) ∧ c.tokenizerSource = some (.ref ⟨⟨cs!"union", none⟩, none, none⟩) ∧ (∀ L full, read L (dump full c) = .ok c') ∧
      c'.tokenizerSource = some .union := by
  refine ⟨.dict [(cs!"merge_method", .str cs!"linear"), (cs!"models", .list [.dict [(cs!"model", .str cs!"a")]]), (cs!"tokenizer_source", .dict [(cs!"model", .str cs!"union")])],
    { mergeMethod := cs!"linear", models := some [⟨⟨⟨cs!"a", none⟩, none, none⟩, none⟩], tokenizerSource := some (.ref ⟨⟨cs!"union", none⟩, none, none⟩) },
    { mergeMethod := cs!"linear", models := some [⟨⟨⟨cs!"a", none⟩, none, none⟩, none⟩], tokenizerSource := some .union }, ?_, rfl, ?_, rfl⟩
  · intro L
    rfl
  · intro L full
    rfl

/-! ## Examples -/

/-- A document like `examples/gradient-slerp.yml`, with a tokenizer. -/
def exDoc : Doc ℚ :=
  .dict [(cs!"slices", .list [.dict [(cs!"sources", .list [.dict [(cs!"model", .str cs!"org/one@main+lora"), (cs!"layer_range", .list [.int 0, .int 32])],
      .dict [(cs!"model", .dict [(cs!"model", .str cs!"two"), (cs!"override_architecture", .str cs!"Llama")]), (cs!"layer_range", .list [.int 0, .int 32])]])]]),
    (cs!"merge_method", .str cs!"slerp"), (cs!"base_model", .str cs!"org/one"), (cs!"comment", .str cs!"ignored"),
    (cs!"parameters", .dict [(cs!"t", .list [.dict [(cs!"filter", .str cs!"mlp"), (cs!"value", .list [.int 0, .float (1 / 2)])], .dict [(cs!"value", .float (1 / 3))]])]),
    (cs!"tokenizer", .dict [(cs!"source", .str cs!"base"), (cs!"tokens", .dict [(cs!"<pad>", .dict [(cs!"source", .dict [(cs!"kind", .str cs!"model_token"),
      (cs!"model", .str cs!"two"), (cs!"token_id", .int 7)]), (cs!"force", .bool true)])])]), (cs!"dtype", .str cs!"bfloat16")]

/-- What it says. -/
def exConf : Conf ℚ :=
  { slices := some [⟨[⟨⟨⟨cs!"org/one", some cs!"main"⟩, some ⟨cs!"lora", none⟩, none⟩, 0, 32, none⟩, ⟨⟨⟨cs!"two", none⟩, none, some cs!"Llama"⟩, 0, 32, none⟩], none, none, none⟩],
    mergeMethod := cs!"slerp", baseModel := some ⟨⟨cs!"org/one", none⟩, none, none⟩, dtype := some cs!"bfloat16",
    tokenizer := some ⟨.base, some [(cs!"<pad>", ⟨some (.modelToken ⟨⟨cs!"two", none⟩, none, none⟩ (some 7) none), true⟩)], none⟩,
    parameters := some [(cs!"t", .conds [⟨.many [0, 1 / 2], some cs!"mlp"⟩, ⟨.one (1 / 3), none⟩])] }

/-- Conversions. -/
def exLib : Lib ℚ := ⟨fun i => i, fun x => if x.den = 1 then some x.num else none, fun _ => none, fun _ => none, fun _ => none⟩

theorem ex_read : read exLib exDoc = .ok exConf := by rfl

example : ∃ d, exDoc = .dict d ∧ ConfSays exLib d exConf := ⟨_, rfl, C130_reads ex_read⟩
example : ∃ d, exDoc = .dict d ∧ PlainTokens exLib d ∧ ConfSays exLib d exConf := by
  refine ⟨_, rfl, ?_, C130_reads ex_read⟩
  intro t ts ht hts e he c src hc hsrc
  cases ht
  cases hts
  rw [List.mem_singleton] at he
  subst he
  cases hc
  cases hsrc
  exact Or.inr (Or.inl ⟨_, .mk ⟨_, rfl, .mk _⟩ ⟨_, rfl, .text (r := ⟨⟨cs!"two", none⟩, none, none⟩) rfl⟩ (.given (by simp) (.int 7)) .missing (by simp)⟩)
example : exConf.toConfig.valid = true := C130_valid ex_read

example (full : Bool) : read exLib (dump full exConf) = .ok exConf := by
  refine C130_round_trip ex_read ?_ ?_ full
  · intro r hr
    have : r ∈ [(⟨⟨cs!"org/one", some cs!"main"⟩, some ⟨cs!"lora", none⟩, none⟩ : Ref), ⟨⟨cs!"two", none⟩, none, some cs!"Llama"⟩, ⟨⟨cs!"org/one", none⟩, none, none⟩,
      ⟨⟨cs!"two", none⟩, none, none⟩] := by
      simpa [Conf.refs, Conf.vocabs, sliceRefs, tokenRefs, vocabRefs, exConf] using hr
    simp only [List.mem_cons, List.not_mem_nil, or_false] at this
    rcases this with rfl | rfl | rfl | rfl
    · refine Or.inr ⟨?_, by decide +kernel, by decide +kernel⟩
      refine ⟨⟨by unfold ModelRef.NoSep; decide +kernel, ?_⟩, ?_, rfl⟩
      · intro r hr
        cases hr <;> (unfold ModelRef.NoSep; decide +kernel)
      · intro l hl
        cases hl <;> exact ⟨by unfold ModelRef.NoSep; decide +kernel, by intro r hr; cases hr⟩
    · exact Or.inl rfl
    · refine Or.inr ⟨?_, by decide +kernel, by decide +kernel⟩
      refine ⟨⟨by unfold ModelRef.NoSep; decide +kernel, ?_⟩, ?_, rfl⟩
      · intro r hr
        cases hr <;> (unfold ModelRef.NoSep; decide +kernel)
      · intro l hl
        cases hl <;> exact ⟨by unfold ModelRef.NoSep; decide +kernel, by intro r hr; cases hr⟩
    · refine Or.inr ⟨?_, by decide +kernel, by decide +kernel⟩
      refine ⟨⟨by unfold ModelRef.NoSep; decide +kernel, ?_⟩, ?_, rfl⟩
      · intro r hr
        cases hr <;> (unfold ModelRef.NoSep; decide +kernel)
      · intro l hl
        cases hl <;> exact ⟨by unfold ModelRef.NoSep; decide +kernel, by intro r hr; cases hr⟩
  · intro r hr
    simp [Conf.vocabs, vocabRefs, exConf] at hr

-- a misspelt key
example : read exLib (.dict [(cs!"merge_method", .str cs!"linear"), (cs!"models", .list [.dict [(cs!"model", .str cs!"a")]]), (cs!"paramters", .dict [(cs!"weight", .float (1 : ℚ))])]) =
    read exLib (.dict [(cs!"merge_method", .str cs!"linear"), (cs!"models", .list [.dict [(cs!"model", .str cs!"a")]])]) :=
  C130_unknown_keys (by simp [known, List.lookup_cons])

example : ∃ s, readSetting exLib (.dict [(cs!"value", .float 1), (cs!"filter", .str cs!"mlp")]) = .ok s ∧ ∀ t, Config.evaluateSetting (some cs!"x.mlp") s.toConfig t = .error .unexpected :=
  ⟨_, rfl, fun t => C130_single_condition (L := exLib) (d := [(cs!"value", .float 1), (cs!"filter", .str cs!"mlp")]) rfl _ t⟩

example : ModelRef.parse cs!"two" = .ok ⟨⟨cs!"two", none⟩, none, none⟩ ∧ ModelRef.parsePath cs!"two" = .ok ⟨cs!"two", none⟩ := ⟨rfl, rfl⟩

-- a document that is refused
example : read exLib (.dict [(cs!"merge_method", .str cs!"linear")]) = .error .runtime := rfl

end Verif.Document
