import Verif.Props.Document

/-!
# C130: what a document means to the rest of the program

`ConfSays` says which fields a document gives.  Here the same is said of the configuration the
merge works with, directly from the document: settings as `evaluate_setting` meets them.
-/

namespace Verif.Document

open ModelRef (Str Ref ModelPath)

variable {K : Type} {L : Lib K}

/-- `{value: .., filter: ..}` among conditional values. -/
inductive CondIs (L : Lib K) : Doc K → Config.Cond K → Prop
  | one {d v x f} : d.lookup cs!"value" = some v → Number L v x → Maybe Text (d.lookup cs!"filter") f → CondIs L (.dict d) ⟨.inl (.num x), f⟩
  | many {d l xs f} : d.lookup cs!"value" = some (.list l) → List.Forall₂ (fun v s => ∃ x, Number L v x ∧ s = .num x) l xs → Maybe Text (d.lookup cs!"filter") f →
      CondIs L (.dict d) ⟨.inr xs, f⟩

/-- A setting: a number, a gradient, a condition, or a list of conditions. -/
inductive SettingIs (L : Lib K) : Doc K → Config.Setting K → Prop
  | one {d x} : Number L d x → SettingIs L d (.scalar (.num x))
  | many {l xs} : l ≠ [] → List.Forall₂ (fun v e => ∃ x, Number L v x ∧ e = .scalar (.num x)) l xs → SettingIs L (.list l) (.list xs)
  | cond {d c} : CondIs L d c → SettingIs L d (.cond c)
  | conds {l xs} : List.Forall₂ (fun v e => ∃ c, CondIs L v c ∧ e = .cond c) l xs → SettingIs L (.list l) (.list xs)

/-- Parameters: the entries there are, and none if there is no such field. -/
inductive ParamsIs (L : Lib K) : Option (Doc K) → Config.Params K → Prop
  | missing : ParamsIs L none []
  | null : ParamsIs L (some .null) []
  | given {d p} : Mapped (SettingIs L) d p → ParamsIs L (some d) p

/-- A source of a slice. -/
inductive SourceIs (L : Lib K) : Doc K → Config.InSlice K → Prop
  | mk {d a b m x y p} : Has RefSays d cs!"model" m → d.lookup cs!"layer_range" = some (.list [a, b]) → Integer L a x → Integer L b y →
      ParamsIs L (d.lookup cs!"parameters") p → SourceIs L (.dict d) ⟨m, x, y, p⟩

/-- An input model. -/
inductive ModelIs (L : Lib K) : Doc K → Config.InModel K → Prop
  | mk {d m p} : Has RefSays d cs!"model" m → ParamsIs L (d.lookup cs!"parameters") p → ModelIs L (.dict d) ⟨m, p⟩

/-- A slice of the output. -/
inductive SliceIs (L : Lib K) : Doc K → Config.OutSlice K → Prop
  | mk {d s b p} : Has (Listed (SourceIs L)) d cs!"sources" s → Maybe RefSays (d.lookup cs!"base_model") b → ParamsIs L (d.lookup cs!"parameters") p → SliceIs L (.dict d) ⟨s, b, p⟩

/-- A module of the output. -/
inductive ModuleIs (L : Lib K) : Doc K → Config.OutModule K → Prop
  | mk {d s m p} : Maybe (Listed (SliceIs L)) (d.lookup cs!"slices") s → Maybe (Listed (ModelIs L)) (d.lookup cs!"models") m → ParamsIs L (d.lookup cs!"parameters") p →
      ModuleIs L (.dict d) ⟨s, m, p⟩

/-- The modules, by name. -/
inductive ModulesAre (L : Lib K) : Doc K → List (String × Config.OutModule K) → Prop
  | mk {d ms} : List.Forall₂ (fun e m => m.1.toList = e.1 ∧ ModuleIs L e.2 m.2) d ms → ModulesAre L (.dict d) ms

/-- Something is given, and is not null. -/
def Present (o : Option (Doc K)) : Prop := ∃ d, o = some d ∧ d ≠ .null

/-- The configuration a merge works with. -/
structure ConfIs (L : Lib K) (d : List (Str × Doc K)) (c : Config.MergeConfig K) : Prop where
  modules : Maybe (ModulesAre L) (d.lookup cs!"modules") c.modules
  slices : Maybe (Listed (SliceIs L)) (d.lookup cs!"slices") c.slices
  models : Maybe (Listed (ModelIs L)) (d.lookup cs!"models") c.models
  baseModel : Maybe RefSays (d.lookup cs!"base_model") c.baseModel
  tokenizerSource : c.tokenizerSource = true ↔ Present (d.lookup cs!"tokenizer_source")
  tokenizer : c.tokenizer = true ↔ Present (d.lookup cs!"tokenizer")
  parameters : ParamsIs L (d.lookup cs!"parameters") c.parameters

theorem Maybe.map {A B : Type} {P : Doc K → A → Prop} {Q : Doc K → B → Prop} {f : A → B} (h : ∀ d a, P d a → Q d (f a)) {o : Option (Doc K)} {a : Option A}
    (hm : Maybe P o a) : Maybe Q o (a.map f) := by
  cases hm with
  | missing => exact .missing
  | null => exact .null
  | given hn hp => exact .given hn (h _ _ hp)

theorem Maybe.present {A : Type} {P : Doc K → A → Prop} {o : Option (Doc K)} {a : Option A} (hm : Maybe P o a) : a.isSome = true ↔ Present o := by
  cases hm with
  | missing => simp [Present]
  | null => simp [Present]
  | given hn hp => exact ⟨fun _ => ⟨_, rfl, hn⟩, fun _ => rfl⟩

theorem forall2_map {A B C : Type} {P : A → B → Prop} {Q : A → C → Prop} {f : B → C} (h : ∀ a b, P a b → Q a (f b)) {l : List A} {m : List B} (hm : List.Forall₂ P l m) :
    List.Forall₂ Q l (m.map f) := by
  induction hm with
  | nil => exact .nil
  | cons h1 _ ih => exact .cons (h _ _ h1) ih

theorem Listed.map {A B : Type} {P : Doc K → A → Prop} {Q : Doc K → B → Prop} {f : A → B} (h : ∀ d a, P d a → Q d (f a)) {d : Doc K} {l : List A}
    (hm : Listed P d l) : Listed Q d (l.map f) := by
  cases hm with
  | mk hf => exact .mk (forall2_map h hf)

theorem cond_is {d : Doc K} {c : Cond K} (h : Conditional L d c) : CondIs L d c.toConfig := by
  cases h with
  | mk hv hf =>
    obtain ⟨v, hv, hn⟩ := hv
    cases hn with
    | one hx => exact .one hv hx hf
    | many hx => exact .many hv (forall2_map (fun _ x hx => ⟨x, hx, rfl⟩) hx) hf

theorem setting_is {d : Doc K} {s : Setting K} (h : Says L d s) : SettingIs L d s.toConfig := by
  cases h with
  | one hx => exact .one hx
  | many hn hx => exact .many hn (forall2_map (fun _ x hx => ⟨x, hx, rfl⟩) hx)
  | cond hc => exact .cond (cond_is hc)
  | conds hc => exact .conds (forall2_map (fun _ x hx => ⟨_, cond_is hx, rfl⟩) hc)

theorem params_is {o : Option (Doc K)} {p : Option (Params K)} (h : Maybe (Mapped (Says L)) o p) : ParamsIs L o (paramsToConfig p) := by
  cases h with
  | missing => exact .missing
  | null => exact .null
  | given _ hm =>
    cases hm with
    | mk hf => exact .given (.mk (forall2_map (fun _ _ he => ⟨he.1, setting_is he.2⟩) hf))

theorem source_is {d : Doc K} {s : InSlice K} (h : SourceSays L d s) : SourceIs L d s.toConfig := by
  cases h with
  | mk h1 h2 h3 h4 h5 => exact .mk h1 h2 h3 h4 (params_is h5)

theorem model_is {d : Doc K} {s : InModel K} (h : ModelSays L d s) : ModelIs L d s.toConfig := by
  cases h with
  | mk h1 h2 => exact .mk h1 (params_is h2)

theorem slice_is {d : Doc K} {s : OutSlice K} (h : SliceSays L d s) : SliceIs L d s.toConfig := by
  cases h with
  | mk h1 h2 h3 h4 =>
    obtain ⟨v, hv, hl⟩ := h1
    exact .mk ⟨v, hv, hl.map (fun _ _ => source_is)⟩ h2 (params_is h4)

theorem module_is {d : Doc K} {s : OutModule K} (h : ModuleSays L d s) : ModuleIs L d s.toConfig := by
  cases h with
  | mk h1 h2 h3 h4 => exact .mk (h1.map (fun _ _ h => h.map (fun _ _ => slice_is))) (h2.map (fun _ _ h => h.map (fun _ _ => model_is))) (params_is h3)

/-- **C130** The configuration the merge works with is the one the document describes: its models, slices and modules in the order written, every setting with its value, and nothing that is not written. -/
theorem C130_configuration {d : List (Str × Doc K)} {c : Conf K} (h : read L (.dict d) = .ok c) : ConfIs L d c.toConfig := by
  have hs := C130_reads h
  refine ⟨hs.modules.map ?_, hs.slices.map (fun _ _ h => h.map (fun _ _ => slice_is)), hs.models.map (fun _ _ h => h.map (fun _ _ => model_is)), hs.baseModel,
    hs.tokenizerSource.present, hs.tokenizer.present, params_is hs.parameters⟩
  intro x a hx
  cases hx with
  | mk hf => exact .mk (forall2_map (fun _ _ he => ⟨by rw [String.toList_ofList, he.1], module_is he.2⟩) hf)

example : ∃ d, exDoc = .dict d ∧ ConfIs exLib d exConf.toConfig ∧ exConf.toConfig.parameters.length = 1 := ⟨_, rfl, C130_configuration ex_read, rfl⟩

end Verif.Document
