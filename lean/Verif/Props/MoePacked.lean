import Verif.Props.Moe

/-! # C57: packed experts (Mixtral, Qwen3); routers.  C58: checks of the configuration.  C76: choice of the output architecture -/

set_option linter.unusedSectionVars false

namespace Verif.Moe

open Verif.ModelRef (Str)
open Verif.Arch (WeightInfo hasMlp)
open Verif.Convert (Transform Packs convertTensors NoDigitEnd NoDigitStart natLe)

variable {M K V W : Type} [DecidableEq M]

/-- What the transformers library promises about packing the experts' tensors of a layer: the tensors named
`model.layers.<layer>.mlp.experts.<e><param>` are collected for each of `params` and packed into `target` by the first conversion that looks at
them. -/
structure PacksExperts (transforms : List (Transform V)) (layer : Nat) (params : List Str) (target : Str) (pack : List (List V) → V) : Prop where
  found : ∃ before t after, ∃ pattern : Str → Str, transforms = before ++ t :: after ∧ Packs t pack (layerName layer target) ∧
    t.sourcePatterns = params.map pattern ∧ (∀ p ∈ params, ∀ q ∈ params, pattern p = pattern q → p = q) ∧
    (∀ u ∈ before, ∀ e p, p ∈ params → (u.rename (layerName layer cs!"experts." ++ Nat.toDigits 10 e ++ p)).2 = none) ∧
    ∀ e, ∀ p ∈ params, t.rename (layerName layer cs!"experts." ++ Nat.toDigits 10 e ++ p) = (layerName layer target, some (pattern p))

/-- The name of a part of expert `i`. -/
def partName (layer i : Nat) (param : Str) : Str :=
  cs!"model.layers." ++ Nat.toDigits 10 layer ++ cs!".mlp.experts." ++ Nat.toDigits 10 i ++ param

/-- The name of a feed-forward weight in the models. -/
def sourceName (layer : Nat) (param : Str) : Str := cs!"model.layers." ++ Nat.toDigits 10 layer ++ cs!".mlp." ++ param ++ cs!".weight"

/-- An expert's tensor before the packing. -/
def raw (ops : Ops V K) (e : Expert M K) (out : Str) (down : Bool) (t : V) : V :=
  match e.noiseScale, down, e.residualScale with
  | none, false, _ => t
  | none, true, none => t
  | none, true, some r => ops.scale r t
  | some s, false, _ => ops.noise out s t
  | some s, true, none => ops.noise out s t
  | some s, true, some r => ops.scale r (ops.noise out s t)

theorem raw_eq (ops : Ops V K) (e : Expert M K) (out : Str) (down : Bool) (t : V) : noiseAndScale ops out t e down = raw ops e out down t := by
  unfold noiseAndScale raw
  cases e.noiseScale <;> cases down <;> cases e.residualScale <;> rfl

/-- The experts' tensors of one kind, in the order of the experts. -/
def column (ops : Ops V K) (disk : M → Loader V) (c : Config M K) (layer : Nat) (source param : Str) (down : Bool) (xs : List V) : Prop :=
  xs.length = c.experts.length ∧ ∀ i e, c.experts[i]? = some e →
    ∃ t, disk e.source (sourceName layer source) = some t ∧ xs[i]? = some (raw ops e (partName layer i param) down t)

theorem layerName_part (layer i : Nat) (param : Str) :
    layerName layer (cs!"experts." ++ Nat.toDigits 10 i ++ cs!"." ++ param ++ cs!".weight") = partName layer i (cs!"." ++ param ++ cs!".weight") := by
  unfold layerName partName
  simp [List.append_assoc]

theorem layerName_source (layer : Nat) (param : Str) : layerName layer (param ++ cs!".weight") = sourceName layer param := by
  unfold layerName sourceName
  simp [List.append_assoc]

theorem layerName_experts (layer i : Nat) (param : Str) : layerName layer cs!"experts." ++ Nat.toDigits 10 i ++ param = partName layer i param := by
  unfold layerName partName
  simp [List.append_assoc]

theorem readPart_ok {ops : Ops V K} {disk : M → Loader V} {c : Config M K} {layer i : Nat} {e : Expert M K} (he : e ∈ c.experts) {p : Str × Str}
    {x : Bool × Str × V} (h : readPart ops disk c layer (e, i) p = .ok x) :
    ∃ t, disk e.source (sourceName layer p.1) = some t ∧
      x = (decide (p.1 = cs!"down_proj"), partName layer i (cs!"." ++ p.2 ++ cs!".weight"),
        raw ops e (partName layer i (cs!"." ++ p.2 ++ cs!".weight")) (decide (p.1 = cs!"down_proj")) t) := by
  unfold readPart at h
  simp only [loaderFor_expert disk c he, layerName_part] at h
  simp only [layerName_source] at h
  cases ht : disk e.source (sourceName layer p.1) with
  | none => rw [ht] at h; cases h
  | some t =>
    rw [ht] at h
    cases h
    exact ⟨t, rfl, by rw [raw_eq]⟩

/-- The tensors read for a layer, as a function of expert and kind. -/
theorem readLayer_ok [Inhabited V] {ops : Ops V K} {disk : M → Loader V} {c : Config M K} {params : List (Str × Str)} {layer : Nat}
    {xs : List (Bool × Str × V)} (h : readLayer ops disk c params layer = .ok xs) :
    ∃ v : Nat → Str × Str → V,
      (∀ i e, c.experts[i]? = some e → ∀ p ∈ params, ∃ t, disk e.source (sourceName layer p.1) = some t ∧
        v i p = raw ops e (partName layer i (cs!"." ++ p.2 ++ cs!".weight")) (decide (p.1 = cs!"down_proj")) t) ∧
      xs = (List.range c.experts.length).flatMap (fun i => params.map (fun p =>
        (decide (p.1 = cs!"down_proj"), partName layer i (cs!"." ++ p.2 ++ cs!".weight"), v i p))) := by
  unfold readLayer at h
  obtain ⟨rfl, hall⟩ := each_ok h
  have key : ∀ i e, c.experts[i]? = some e → ∀ p ∈ params, ∃ x, readPart ops disk c layer (e, i) p = .ok x := by
    intro i e he p hp
    have h1 := hall (e, i) (List.mem_zipIdx_iff_getElem?.2 he)
    have h2 := (each_ok h1).2 p hp
    cases hr : readPart ops disk c layer (e, i) p with
    | error err => rw [hr] at h2; cases h2
    | ok x => exact ⟨x, rfl⟩
  let v : Nat → Str × Str → V := fun i p =>
    match c.experts[i]? with
    | none => default
    | some e =>
      match readPart ops disk c layer (e, i) p with
      | .ok x => x.2.2
      | .error _ => default
  refine ⟨v, ?_, ?_⟩
  · intro i e he p hp
    obtain ⟨x, hx⟩ := key i e he p hp
    obtain ⟨t, ht, hxe⟩ := readPart_ok (List.mem_of_getElem? he) hx
    refine ⟨t, ht, ?_⟩
    simp only [v, he, hx, hxe]
  · rw [show c.experts.zipIdx.flatMap (fun a => val (each (fun p => (readPart ops disk c layer a p).map ([·])) params)) =
        c.experts.zipIdx.flatMap (fun a => params.map (fun p => (decide (p.1 = cs!"down_proj"), partName layer a.2 (cs!"." ++ p.2 ++ cs!".weight"), v a.2 p))) from ?_]
    · have hz : (List.range c.experts.length) = c.experts.zipIdx.map Prod.snd := by
        simp [List.range_eq_range']
      rw [hz, List.flatMap_map]
    · refine List.flatMap_congr ?_
      rintro ⟨e, i⟩ hp
      have he := List.mem_zipIdx_iff_getElem?.1 hp
      obtain ⟨h1, h2⟩ := each_ok (hall (e, i) hp)
      rw [h1, ← List.flatMap_pure_eq_map]
      refine List.flatMap_congr ?_
      intro p hpp
      obtain ⟨x, hx⟩ := key i e he p hpp
      obtain ⟨t, ht, hxe⟩ := readPart_ok (List.mem_of_getElem? he) hx
      have hv : v i p = x.2.2 := by simp only [v, he, hx]
      rw [hx]
      show [x] = [(_, _, v i p)]
      rw [hv, hxe]

theorem partsOf_eq {n layer : Nat} {params : List (Str × Str)} {v : Nat → Str × Str → V} (down : Bool) :
    partsOf down ((List.range n).flatMap (fun i => params.map (fun p =>
        (decide (p.1 = cs!"down_proj"), partName layer i (cs!"." ++ p.2 ++ cs!".weight"), v i p)))) =
      (List.range n).flatMap (fun i => (params.filter (fun p => decide (p.1 = cs!"down_proj") = down)).map (fun p =>
        (partName layer i (cs!"." ++ p.2 ++ cs!".weight"), v i p))) := by
  unfold partsOf
  rw [List.filter_flatMap, List.map_flatMap]
  congr 1
  funext i
  rw [List.filter_map, List.map_map]
  rfl

/-- Packing of the parts of one kind. -/
theorem convertSave_parts {ops : Ops V K} {transforms : List (Transform V)} {layer n : Nat} (hn : 0 < n) {ps : List (Str × Str)} {target : Str}
    {pack : List (List V) → V} (hne : ps ≠ []) (hnd : (ps.map (fun p => cs!"." ++ p.2 ++ cs!".weight")).Nodup)
    (hord : (ps.map (fun p => cs!"." ++ p.2 ++ cs!".weight")).Pairwise (fun p q => natLe p q = true))
    (hp : PacksExperts transforms layer (ps.map (fun p => cs!"." ++ p.2 ++ cs!".weight")) target pack) (v : Nat → Str × Str → V) :
    convertSave ops transforms ((List.range n).flatMap (fun i => ps.map (fun p => (partName layer i (cs!"." ++ p.2 ++ cs!".weight"), v i p))))
        (layerName layer target) =
      .ok [(layerName layer target, ops.cast (pack (ps.map (fun p => (List.range n).map (fun i => v i p)))))] := by
  obtain ⟨before, t, after, pattern, rfl, h1, h2, h3, h4, h5⟩ := hp.found
  let inv : Str → Str × Str := fun q => (ps.find? (fun p => cs!"." ++ p.2 ++ cs!".weight" = q)).getD ([], [])
  have hinv : ∀ p ∈ ps, inv (cs!"." ++ p.2 ++ cs!".weight") = p := by
    intro p hp
    simp only [inv]
    cases hf : ps.find? (fun p' => decide (cs!"." ++ p'.2 ++ cs!".weight" = cs!"." ++ p.2 ++ cs!".weight")) with
    | none =>
      have := List.find?_eq_none.1 hf p hp
      simp at this
    | some p' =>
      have hp' := List.mem_of_find?_eq_some hf
      have he := List.find?_some hf
      simp only [decide_eq_true_eq] at he
      exact List.inj_on_of_nodup_map hnd hp' hp he
  have := Verif.Convert.C57_packed before after t pack (layerName layer target) (layerName layer cs!"experts.")
    (ps.map (fun p => cs!"." ++ p.2 ++ cs!".weight")) pattern (fun i q => v i (inv q)) n hn
    (by intro c hc
        have : c = '.' := by
          unfold layerName at hc
          rw [List.getLast?_append] at hc
          simpa using hc.symm
        subst this; rfl) hnd (by simpa using hne)
    (by
      intro p hp c hc
      obtain ⟨q, _, rfl⟩ := List.mem_map.1 hp
      have : c = '.' := by simpa using hc.symm
      subst this; rfl)
    hord h4 h1 h2 h3 h5
  unfold convertSave
  simp only [List.map_map, layerName_experts] at this
  have e1 : (List.range n).flatMap (fun i => ps.map (fun p => (partName layer i (cs!"." ++ p.2 ++ cs!".weight"), v i p))) =
      (List.range n).flatMap (fun i => ps.map ((fun q => (partName layer i q, v i (inv q))) ∘ fun p => cs!"." ++ p.2 ++ cs!".weight")) := by
    congr 1
    funext i
    refine List.map_congr_left ?_
    intro p hp
    simp only [Function.comp_apply, hinv p hp]
  rw [e1, this]
  simp only
  congr 5
  refine List.map_congr_left ?_
  intro p hp
  simp only [Function.comp_apply, hinv p hp]

/-- One packed tensor per kind: gate and up projections of all experts, and down projections of all experts, each in the order of the experts. -/
inductive PackedPart (ops : Ops V K) (disk : M → Loader V) (c : Config M K) (gate up down : Str) (pack2 pack1 : Nat → List (List V) → V) (numLayers : Nat) :
    Str × V → Prop
  | gateUp (layer : Nat) (h : layer < numLayers) (gs us : List V)
      (hg : column ops disk c layer cs!"gate_proj" gate false gs) (hu : column ops disk c layer cs!"up_proj" up false us) :
      PackedPart ops disk c gate up down pack2 pack1 numLayers
        (cs!"model.layers." ++ Nat.toDigits 10 layer ++ cs!".mlp." ++ cs!"experts.gate_up_proj", ops.cast (pack2 layer [gs, us]))
  | down (layer : Nat) (h : layer < numLayers) (ds : List V) (hd : column ops disk c layer cs!"down_proj" down true ds) :
      PackedPart ops disk c gate up down pack2 pack1 numLayers
        (cs!"model.layers." ++ Nat.toDigits 10 layer ++ cs!".mlp." ++ cs!"experts.down_proj", ops.cast (pack1 layer [ds]))

theorem column_unique {ops : Ops V K} {disk : M → Loader V} {c : Config M K} {layer : Nat} {source param : Str} {down : Bool} {xs ys : List V}
    (hx : column ops disk c layer source param down xs) (hy : column ops disk c layer source param down ys) : xs = ys := by
  refine List.ext_getElem? ?_
  intro i
  by_cases hi : i < c.experts.length
  · obtain ⟨t, h1, h2⟩ := hx.2 i c.experts[i] (List.getElem?_eq_getElem hi)
    obtain ⟨t', h1', h2'⟩ := hy.2 i c.experts[i] (List.getElem?_eq_getElem hi)
    rw [h1] at h1'
    cases h1'
    rw [h2, h2']
  · rw [List.getElem?_eq_none (by rw [hx.1]; omega), List.getElem?_eq_none (by rw [hy.1]; omega)]

/-- The experts of one layer, for parameters whose gate and up projections appear in that order. -/
theorem packLayer_ok [Inhabited V] {ops : Ops V K} {disk : M → Loader V} {c : Config M K} {params : List (Str × Str)} {transforms : List (Transform V)}
    {layer : Nat} {g u d : Str} (hc : c.experts ≠ [])
    (hgu : params.filter (fun p => decide (p.1 = cs!"down_proj") = false) = [(cs!"gate_proj", g), (cs!"up_proj", u)])
    (hd : params.filter (fun p => decide (p.1 = cs!"down_proj") = true) = [(cs!"down_proj", d)])
    (hgune : cs!"." ++ g ++ cs!".weight" ≠ cs!"." ++ u ++ cs!".weight") (hord : natLe (cs!"." ++ g ++ cs!".weight") (cs!"." ++ u ++ cs!".weight") = true)
    {pack2 pack1 : List (List V) → V}
    (hp2 : PacksExperts transforms layer [cs!"." ++ g ++ cs!".weight", cs!"." ++ u ++ cs!".weight"] cs!"experts.gate_up_proj" pack2)
    (hp1 : PacksExperts transforms layer [cs!"." ++ d ++ cs!".weight"] cs!"experts.down_proj" pack1) {x : List (Str × V)}
    (h : packLayer ops disk c { params := params, transforms := transforms } layer = .ok x) :
    ∃ gs us ds, column ops disk c layer cs!"gate_proj" (cs!"." ++ g ++ cs!".weight") false gs ∧
      column ops disk c layer cs!"up_proj" (cs!"." ++ u ++ cs!".weight") false us ∧
      column ops disk c layer cs!"down_proj" (cs!"." ++ d ++ cs!".weight") true ds ∧
      x = [(layerName layer cs!"experts.gate_up_proj", ops.cast (pack2 [gs, us])), (layerName layer cs!"experts.down_proj", ops.cast (pack1 [ds]))] := by
  unfold packLayer at h
  cases hr : readLayer ops disk c params layer with
  | error e => rw [hr] at h; cases h
  | ok xs =>
    rw [hr] at h
    simp only at h
    obtain ⟨v, hv, rfl⟩ := readLayer_ok hr
    have hn : 0 < c.experts.length := List.length_pos_iff.2 hc
    rw [partsOf_eq, partsOf_eq, hgu, hd] at h
    rw [convertSave_parts hn (by simp) (by simpa using hgune) (by simpa using hord) (by simpa using hp2) v,
      convertSave_parts hn (by simp) (by simp) (by simp) (by simpa using hp1) v] at h
    have hmem : ∀ p, p ∈ [(cs!"gate_proj", g), (cs!"up_proj", u)] ∨ p ∈ [(cs!"down_proj", d)] → p ∈ params := by
      rintro p (hp | hp)
      · rw [← hgu] at hp; exact List.mem_of_mem_filter hp
      · rw [← hd] at hp; exact List.mem_of_mem_filter hp
    have hcol : ∀ p ∈ params, column ops disk c layer p.1 (cs!"." ++ p.2 ++ cs!".weight") (decide (p.1 = cs!"down_proj"))
        ((List.range c.experts.length).map (fun i => v i p)) := by
      intro p hp
      refine ⟨by simp, ?_⟩
      intro i e he
      obtain ⟨t, ht, hve⟩ := hv i e he p hp
      refine ⟨t, ht, ?_⟩
      rw [List.getElem?_map, List.getElem?_range (List.getElem?_eq_some_iff.1 he).1, Option.map_some, hve]
    refine ⟨_, _, _, hcol (cs!"gate_proj", g) (hmem _ (Or.inl (by simp))), hcol (cs!"up_proj", u) (hmem _ (Or.inl (by simp))),
      hcol (cs!"down_proj", d) (hmem _ (Or.inr (by simp))), ?_⟩
    cases h
    rfl

/-- All layers. -/
theorem packLayers_mem [Inhabited V] {ops : Ops V K} {disk : M → Loader V} {c : Config M K} {params : List (Str × Str)} {transforms : List (Transform V)}
    {numLayers : Nat} {g u d : Str} (hc : c.experts ≠ [])
    (hgu : params.filter (fun p => decide (p.1 = cs!"down_proj") = false) = [(cs!"gate_proj", g), (cs!"up_proj", u)])
    (hd : params.filter (fun p => decide (p.1 = cs!"down_proj") = true) = [(cs!"down_proj", d)])
    (hgune : cs!"." ++ g ++ cs!".weight" ≠ cs!"." ++ u ++ cs!".weight") (hord : natLe (cs!"." ++ g ++ cs!".weight") (cs!"." ++ u ++ cs!".weight") = true)
    {pack2 pack1 : Nat → List (List V) → V}
    (hp2 : ∀ layer, PacksExperts transforms layer [cs!"." ++ g ++ cs!".weight", cs!"." ++ u ++ cs!".weight"] cs!"experts.gate_up_proj" (pack2 layer))
    (hp1 : ∀ layer, PacksExperts transforms layer [cs!"." ++ d ++ cs!".weight"] cs!"experts.down_proj" (pack1 layer)) {ys : List (Str × V)}
    (h : each (packLayer ops disk c { params := params, transforms := transforms }) (List.range numLayers) = .ok ys) (x : Str × V) :
    x ∈ ys ↔ PackedPart ops disk c (cs!"." ++ g ++ cs!".weight") (cs!"." ++ u ++ cs!".weight") (cs!"." ++ d ++ cs!".weight") pack2 pack1 numLayers x := by
  obtain ⟨rfl, hall⟩ := each_ok h
  rw [List.mem_flatMap]
  constructor
  · rintro ⟨layer, hl, hx⟩
    obtain ⟨gs, us, ds, h1, h2, h3, h4⟩ := packLayer_ok hc hgu hd hgune hord (hp2 layer) (hp1 layer) (hall layer hl)
    rw [h4] at hx
    have hl' := List.mem_range.1 hl
    simp only [List.mem_cons, List.not_mem_nil, or_false] at hx
    rcases hx with rfl | rfl
    · exact .gateUp layer hl' gs us h1 h2
    · exact .down layer hl' ds h3
  · intro hx
    cases hx with
    | gateUp layer hl gs us hg hu =>
      obtain ⟨gs', us', ds', h1, h2, h3, h4⟩ := packLayer_ok hc hgu hd hgune hord (hp2 layer) (hp1 layer) (hall layer (List.mem_range.2 hl))
      refine ⟨layer, List.mem_range.2 hl, ?_⟩
      rw [h4, column_unique hg h1, column_unique hu h2]
      exact List.mem_cons_self
    | down layer hl ds hd' =>
      obtain ⟨gs', us', ds', h1, h2, h3, h4⟩ := packLayer_ok hc hgu hd hgune hord (hp2 layer) (hp1 layer) (hall layer (List.mem_range.2 hl))
      refine ⟨layer, List.mem_range.2 hl, ?_⟩
      rw [h4, column_unique hd' h3]
      exact List.mem_cons_of_mem _ List.mem_cons_self

/-- C57 for the Mixtral layout: a finished run saves exactly the base model's weights outside the feed-forward part, the packed weights of the
experts in order, and one router per layer. -/
theorem C57_mixtral [Inhabited V] {ops : Ops V K} {disk : M → Loader V} {c : Config M K} {weights : List WeightInfo} {transforms : List (Transform V)}
    {numLayers : Nat} {routers : List V} {saved : List (Str × V)} (hc : c.experts ≠ []) {pack2 pack1 : Nat → List (List V) → V}
    (hp2 : ∀ layer, PacksExperts transforms layer [cs!".w1.weight", cs!".w3.weight"] cs!"experts.gate_up_proj" (pack2 layer))
    (hp1 : ∀ layer, PacksExperts transforms layer [cs!".w2.weight"] cs!"experts.down_proj" (pack1 layer))
    (h : writeMixtral ops disk c weights transforms numLayers routers = .ok saved) :
    routers.length = numLayers ∧
    (∀ x, x ∈ saved ↔ BasePart ops disk c weights x ∨
      PackedPart ops disk c cs!".w1.weight" cs!".w3.weight" cs!".w2.weight" pack2 pack1 numLayers x ∨ RouterPart ops cs!"gate.weight" routers x) ∧
    ∀ w ∈ weights, w.optional = false → ¬ cs!".mlp." <:+: w.name → ∃ t, FirstStored (disk c.base) (namesOf w) t := by
  unfold writeMixtral at h
  split at h
  · cases h
  · rename_i hlen
    rw [ne_eq, not_not] at hlen
    cases he : each (fun w => if hasMlp w.name then .ok [] else asList (copyOut ops w (loaderFor disk c c.base) (none : Option (Expert M K)) false w.name)) weights with
    | error e => rw [he] at h; cases h
    | ok xs =>
      rw [he] at h
      simp only at h
      cases hl : each (packLayer ops disk c { params := mixtralParams, transforms := transforms }) (List.range numLayers) with
      | error e => rw [hl] at h; cases h
      | ok ys =>
        rw [hl] at h
        cases h
        obtain ⟨rfl, hall⟩ := each_ok he
        have hb : ∀ w ∈ weights, hasMlp w.name = false → asList (copyOut ops w (some (disk c.base)) (none : Option (Expert M K)) false w.name) =
            .ok (val (if hasMlp w.name then .ok [] else asList (copyOut ops w (loaderFor disk c c.base) (none : Option (Expert M K)) false w.name))) := by
          intro w hw hm
          have := hall w hw
          simp only [hm, Bool.false_eq_true, if_false] at this ⊢
          rw [loaderFor_base] at this ⊢
          exact this
        refine ⟨hlen, ?_, ?_⟩
        · intro x
          rw [List.mem_append, List.mem_append, saveRouters_mem, or_assoc]
          refine or_congr ?_ (or_congr ?_ Iff.rfl)
          · rw [List.mem_flatMap]
            constructor
            · rintro ⟨w, hw, hx⟩
              cases hm : hasMlp w.name with
              | true => simp [hm, val] at hx
              | false =>
                obtain ⟨t, ht, rfl⟩ := ((copyOut_base (hb w hw hm)).1 x).1 hx
                exact ⟨w, hw, by rw [← hasMlp_iff, hm]; simp, rfl, t, ht, rfl⟩
            · rintro ⟨w, hw, hm, h1, t, ht, h2⟩
              rw [← hasMlp_iff, Bool.not_eq_true] at hm
              exact ⟨w, hw, ((copyOut_base (hb w hw hm)).1 x).2 ⟨t, ht, Prod.ext h1 h2⟩⟩
          · exact packLayers_mem (g := cs!"w1") (u := cs!"w3") (d := cs!"w2") hc (by decide) (by decide) (by decide) (by decide) hp2 hp1 hl x
        · intro w hw ho hm
          rw [← hasMlp_iff, Bool.not_eq_true] at hm
          exact (copyOut_base (hb w hw hm)).2 ho

/-- Weights outside the feed-forward part in the Qwen3 layout (names of tied weights are not tried). -/
def Qwen3BasePart (ops : Ops V K) (disk : M → Loader V) (c : Config M K) (weights : List WeightInfo) (x : Str × V) : Prop :=
  ∃ w ∈ weights, ¬ cs!".mlp." <:+: w.name ∧ x.1 = w.name ∧ ∃ t, FirstStored (disk c.base) (w.name :: w.aliases.getD []) t ∧ x.2 = ops.cast t

/-- C57 for the Qwen3 layout. -/
theorem C57_qwen3 [Inhabited V] {ops : Ops V K} {disk : M → Loader V} {c : Config M K} {weights : List WeightInfo} {transforms : List (Transform V)}
    {numLayers : Nat} {routers : List V} {saved : List (Str × V)} (hc : c.experts ≠ []) {pack2 pack1 : Nat → List (List V) → V}
    (hp2 : ∀ layer, PacksExperts transforms layer [cs!".gate_proj.weight", cs!".up_proj.weight"] cs!"experts.gate_up_proj" (pack2 layer))
    (hp1 : ∀ layer, PacksExperts transforms layer [cs!".down_proj.weight"] cs!"experts.down_proj" (pack1 layer))
    (h : writeQwen3 ops disk c weights transforms numLayers routers = .ok saved) :
    (∀ x, x ∈ saved ↔ Qwen3BasePart ops disk c weights x ∨
      PackedPart ops disk c cs!".gate_proj.weight" cs!".up_proj.weight" cs!".down_proj.weight" pack2 pack1 numLayers x ∨
      RouterPart ops cs!"gate.weight" routers x) ∧
    ∀ w ∈ weights, w.optional = false → ¬ cs!".mlp." <:+: w.name → ∃ t, FirstStored (disk c.base) (w.name :: w.aliases.getD []) t := by
  unfold writeQwen3 at h
  cases he : each (fun w => if hasMlp w.name then .ok [] else qwen3Base ops (disk c.base) w) weights with
  | error e => rw [he] at h; cases h
  | ok xs =>
    rw [he] at h
    simp only at h
    cases hl : each (packLayer ops disk c { params := qwen3Params, transforms := transforms }) (List.range numLayers) with
    | error e => rw [hl] at h; cases h
    | ok ys =>
      rw [hl] at h
      cases h
      obtain ⟨rfl, hall⟩ := each_ok he
      have hb : ∀ w ∈ weights, hasMlp w.name = false →
          (∀ y, y ∈ val (if hasMlp w.name then .ok [] else qwen3Base ops (disk c.base) w) ↔
            y.1 = w.name ∧ ∃ t, FirstStored (disk c.base) (w.name :: w.aliases.getD []) t ∧ y.2 = ops.cast t) ∧
          (w.optional = false → ∃ t, FirstStored (disk c.base) (w.name :: w.aliases.getD []) t) := by
        intro w hw hm
        have h1 := hall w hw
        simp only [hm, Bool.false_eq_true, if_false] at h1 ⊢
        unfold qwen3Base at h1 ⊢
        cases hg : get (disk c.base) w.name (w.aliases.getD []) with
        | some t =>
          have hf := (get_some_iff _ _ _ _).1 hg
          refine ⟨?_, fun _ => ⟨t, hf⟩⟩
          intro y
          simp only [val, List.mem_singleton]
          constructor
          · rintro rfl
            exact ⟨rfl, t, hf, rfl⟩
          · rintro ⟨h1, t', ht', h2⟩
            rw [← get_some_iff, hg] at ht'
            cases ht'
            exact Prod.ext h1 h2
        | none =>
          rw [hg] at h1
          simp only at h1 ⊢
          cases ho : w.optional with
          | true =>
            refine ⟨?_, by simp⟩
            intro y
            simp only [if_true, val, List.not_mem_nil, false_iff, not_and, not_exists]
            intro _ t ht
            rw [← get_some_iff, hg] at ht
            cases ht
          | false => rw [ho] at h1; cases h1
      refine ⟨?_, ?_⟩
      · intro x
        rw [List.mem_append, List.mem_append, saveRouters_mem, or_assoc]
        refine or_congr ?_ (or_congr ?_ Iff.rfl)
        · rw [List.mem_flatMap]
          constructor
          · rintro ⟨w, hw, hx⟩
            cases hm : hasMlp w.name with
            | true => simp [hm, val] at hx
            | false =>
              obtain ⟨h1, h2⟩ := ((hb w hw hm).1 x).1 hx
              exact ⟨w, hw, by rw [← hasMlp_iff, hm]; simp, h1, h2⟩
          · rintro ⟨w, hw, hm, h1, h2⟩
            rw [← hasMlp_iff, Bool.not_eq_true] at hm
            exact ⟨w, hw, ((hb w hw hm).1 x).2 ⟨h1, h2⟩⟩
        · exact packLayers_mem (g := cs!"gate_proj") (u := cs!"up_proj") (d := cs!"down_proj") hc (by decide) (by decide) (by decide) (by decide +kernel) hp2 hp1 hl x
      · intro w hw ho hm
        rw [← hasMlp_iff, Bool.not_eq_true] at hm
        exact (hb w hw hm).2 ho

end Verif.Moe
