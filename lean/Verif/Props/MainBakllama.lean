import Verif.Model.Bakllama

/-! # C145: `bakllama` -/

namespace Verif.Main

open Verif.ModelRef (Str Ref)
open Verif.Document

/-- A slice as the file describes it. -/
def sliceEntry (s : LayerSlice) : Doc ℝ :=
  .dict ([(cs!"model", .str s.model), (cs!"start", .int s.start), (cs!"end", .int s.stop)] ++ (s.scale.map (fun x => (cs!"scale", Doc.float x))).toList)

/-- A file of the form the command is for: slices of layers of models, some of them scaled. -/
def bakFile (ss : List LayerSlice) : Doc ℝ := .dict [(cs!"layer_slices", .list (ss.map sliceEntry))]

/-- The same slices in a configuration for `mergekit-yaml`. -/
def asYaml (ss : List LayerSlice) : Doc ℝ :=
  .dict [(cs!"merge_method", .str cs!"passthrough"),
    (cs!"slices", .list (ss.map (fun s => .dict [(cs!"sources", .list [.dict ([(cs!"model", .str s.model), (cs!"layer_range", .list [.int s.start, .int s.stop])] ++
      (s.scale.map (fun x => (cs!"parameters", Doc.dict [(cs!"scale", .dict [(cs!"value", .float x), (cs!"filter", .str cs!"down_proj")])]))).toList)])])))]

theorem each_ok {A B : Type} {f : A → R B} {g : A → B} : ∀ {l : List A}, (∀ a ∈ l, f a = .ok (g a)) → each f l = .ok (l.map g)
  | [], _ => rfl
  | a :: l, h => by
    unfold each
    rw [h a (.head _)]
    simp only
    rw [each_ok (fun x hx => h x (.tail _ hx))]
    rfl

/-- A slice made by the command is none of a configuration. -/
theorem bakSlice_refused (L : Lib ℝ) (s : LayerSlice) : readOutSlice L (bakSliceDoc s) = .error .validation := rfl

theorem bakDoc_refused (L : Lib ℝ) (b : BakConf) (fp16 : Bool) :
    read L (bakDoc b fp16) = .error (if b.slices = [] then .runtime else .validation) := by
  obtain ⟨ss, e, h⟩ := b
  cases ss with
  | nil => cases fp16 <;> rfl
  | cons s ss =>
    have : ((⟨s :: ss, e, h⟩ : BakConf).slices = []) = False := by simp
    simp only [this, if_false]
    rfl

/-- **C145** No line makes the command merge anything: it stops at its imports. -/
theorem C145_import (W : World) (line : List Str) : bakMain W line = .error .importError := by
  unfold bakMain
  rw [if_neg (by decide +kernel)]

/-- **C145** And if that were mended, it would still not merge anything, whatever the line, the file and the models: the configuration it makes of the file is never one. -/
theorem C145_never (W : World) (line : List Str) (p : Prepared) : bakBody W line ≠ .ok p := by
  intro h
  unfold bakBody at h
  split at h
  · cases h
  · split at h
    · cases h
    · split at h
      · cases h
      · split at h
        · cases h
        · rw [bakDoc_refused] at h
          cases h

theorem sliceEntry_read (L : Lib ℝ) (s : LayerSlice) : readLayerSlice L (sliceEntry s) = .ok s := by
  obtain ⟨m, a, b, x⟩ := s
  cases x <;> rfl

theorem bakFile_read (L : Lib ℝ) (ss : List LayerSlice) : readBak L (bakFile ss) = .ok ⟨ss, none, none⟩ := by
  have h : each (readLayerSlice L) (ss.map sliceEntry) = .ok ss := by
    have := each_ok (f := fun s => readLayerSlice L (sliceEntry s)) (g := id) (l := ss) (fun s _ => sliceEntry_read L s)
    rw [List.map_id] at this
    rw [← this]
    clear this
    induction ss with
    | nil => rfl
    | cons s ss ih => simp only [List.map_cons, each, ih]
  show (do
    let s ← each (readLayerSlice L) (ss.map sliceEntry)
    let e ← opt readStr (none : Option (Doc ℝ))
    let h ← opt readStr (none : Option (Doc ℝ))
    (.ok ⟨s, e, h⟩ : R BakConf)) = _
  rw [h]
  rfl

/-- **C145** The files the command is for are refused like that: the line is right, the file is read, its slices are understood, and then the configuration made of them is refused. -/
theorem C145_refused (W : World) {line : List Str} {k : CommandLine.Call} (hk : CommandLine.call CommandLine.bakllama line = .ok k) {F O text : Str}
    (ha : k.args = [(cs!"config_path", F), (cs!"out_path", O)]) (hfile : W.file F = some text) {ss : List LayerSlice} (hne : ss ≠ []) (hyaml : W.yaml text = some (bakFile ss)) :
    bakBody W line = .error (.config .validation) := by
  have hF : argument k cs!"config_path" = F := by unfold argument; rw [ha]; rfl
  unfold bakBody
  rw [hk]
  simp only
  rw [hF, hfile]
  simp only
  rw [hyaml]
  simp only
  rw [bakFile_read]
  simp only
  rw [bakDoc_refused, if_neg hne]

/-- The slice of a configuration that a slice of the file stands for. -/
def meant (s : LayerSlice) (r : Ref) : OutSlice ℝ :=
  ⟨[⟨r, s.start, s.stop, s.scale.map (fun x => [(cs!"scale", .cond ⟨.one x, some cs!"down_proj"⟩)])⟩], none, none, none⟩

/-- **C145** What is missing is one level only: `mergekit-yaml` accepts the same slices, each as the only source of a slice of the output, and understands them as meant. -/
theorem C145_yaml (L : Lib ℝ) {ss : List LayerSlice} (hne : ss ≠ []) (ref : LayerSlice → Ref) (href : ∀ s ∈ ss, ModelRef.parse s.model = .ok (ref s)) :
    ∃ c, read L (asYaml ss) = .ok c ∧ c.mergeMethod = cs!"passthrough" ∧ c.slices = some (ss.map (fun s => meant s (ref s))) ∧ c.models = none ∧ c.modules = none ∧ c.parameters = none := by
  have h1 : ∀ s ∈ ss, readOutSlice L (.dict [(cs!"sources", .list [.dict ([(cs!"model", .str s.model), (cs!"layer_range", .list [.int s.start, .int s.stop])] ++
      (s.scale.map (fun x => (cs!"parameters", Doc.dict [(cs!"scale", .dict [(cs!"value", .float x), (cs!"filter", .str cs!"down_proj")])]))).toList)])]) = .ok (meant s (ref s)) := by
    intro s hs
    have hr : readRef (K := ℝ) (.str s.model) = .ok (ref s) := by
      show orRuntime (ModelRef.parse s.model) = _
      rw [href s hs]
      rfl
    obtain ⟨m, a, b, x⟩ := s
    have h2 : readInSlice L (.dict ([(cs!"model", .str m), (cs!"layer_range", .list [.int a, .int b])] ++
      (x.map (fun x => (cs!"parameters", Doc.dict [(cs!"scale", .dict [(cs!"value", .float x), (cs!"filter", .str cs!"down_proj")])]))).toList)) =
        .ok ⟨ref ⟨m, a, b, x⟩, a, b, x.map (fun x => [(cs!"scale", .cond ⟨.one x, some cs!"down_proj"⟩)])⟩ := by
      cases x with
      | none =>
        show (do
          let r ← readRef (K := ℝ) (.str m)
          (.ok ⟨r, a, b, none⟩ : R (InSlice ℝ))) = _
        rw [hr]; rfl
      | some x =>
        show (do
          let r ← readRef (K := ℝ) (.str m)
          (.ok ⟨r, a, b, some [(cs!"scale", .cond ⟨.one x, some cs!"down_proj"⟩)]⟩ : R (InSlice ℝ))) = _
        rw [hr]; rfl
    show (do
      let s ← each (readInSlice L) [_]
      (.ok ⟨s, none, none, none⟩ : R (OutSlice ℝ))) = _
    simp only [each]
    rw [h2]
    rfl
  have h3 : each (readOutSlice L) (ss.map (fun s => .dict [(cs!"sources", .list [.dict ([(cs!"model", .str s.model), (cs!"layer_range", .list [.int s.start, .int s.stop])] ++
      (s.scale.map (fun x => (cs!"parameters", Doc.dict [(cs!"scale", .dict [(cs!"value", .float x), (cs!"filter", .str cs!"down_proj")])]))).toList)])])) =
      .ok (ss.map (fun s => meant s (ref s))) := by
    clear hne href
    induction ss with
    | nil => rfl
    | cons s ss ih =>
      simp only [List.map_cons, each]
      rw [h1 s (.head _)]
      simp only
      rw [ih (fun x hx => h1 x (.tail _ hx))]
  refine ⟨⟨none, some (ss.map (fun s => meant s (ref s))), none, cs!"passthrough", none, none, none, none, none, none, none⟩, ?_, rfl, rfl, rfl, rfl, rfl⟩
  show (do
    let sl ← (each (readOutSlice L) _).map some
    check ⟨none, sl, none, cs!"passthrough", none, none, none, none, none, none, none⟩) = _
  rw [h3]
  obtain ⟨s, ss, rfl⟩ := List.exists_cons_of_ne_nil hne
  rfl

/-! ## A case -/

/-- Two slices, the second with scaled layers. -/
noncomputable def bakCase : List LayerSlice := [⟨cs!"a", 0, 16, none⟩, ⟨cs!"b+c", 8, 32, some (1 / 2)⟩]

/-- A world with that file. -/
noncomputable def bakWorld (W : World) : World := { W with file := fun f => if f = cs!"x.yml" then some cs!"" else none, yaml := fun _ => some (bakFile bakCase) }

/-- C145 for this file. -/
theorem C145_case (W : World) : bakBody (bakWorld W) [cs!"x.yml", cs!"out", cs!"--fp16"] = .error (.config .validation) := by
  have hk : ∃ k, CommandLine.call CommandLine.bakllama [cs!"x.yml", cs!"out", cs!"--fp16"] = .ok k ∧ k.args = [(cs!"config_path", cs!"x.yml"), (cs!"out_path", cs!"out")] := ⟨_, rfl, rfl⟩
  obtain ⟨k, h1, h2⟩ := hk
  exact C145_refused (bakWorld W) h1 h2 (text := cs!"") rfl (ss := bakCase) (by simp [bakCase]) rfl

/-- The same for `mergekit-yaml`. -/
example (L : Lib ℝ) : ∃ c, read L (asYaml bakCase) = .ok c ∧ c.mergeMethod = cs!"passthrough" ∧
    c.slices = some [⟨[⟨⟨⟨cs!"a", none⟩, none, none⟩, 0, 16, none⟩], none, none, none⟩,
      ⟨[⟨⟨⟨cs!"b", none⟩, some ⟨cs!"c", none⟩, none⟩, 8, 32, some [(cs!"scale", .cond ⟨.one (1 / 2), some cs!"down_proj"⟩)]⟩], none, none, none⟩] := by
  obtain ⟨c, h1, h2, h3, -⟩ := C145_yaml L (ss := bakCase) (by simp [bakCase])
    (fun s => if s.model = cs!"a" then ⟨⟨cs!"a", none⟩, none, none⟩ else ⟨⟨cs!"b", none⟩, some ⟨cs!"c", none⟩, none⟩) (by
      intro s hs
      simp only [bakCase, List.mem_cons, List.not_mem_nil, or_false] at hs
      rcases hs with rfl | rfl
      · rfl
      · rfl)
  exact ⟨c, h1, h2, h3⟩

end Verif.Main
