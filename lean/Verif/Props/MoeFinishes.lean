import Verif.Props.MoeBuild

/-! # C57, C124: with everything in place a mixture is written, in every layout -/

set_option linter.unusedSectionVars false

namespace Verif.Moe

open Verif.ModelRef (Str)
open Verif.Arch (WeightInfo hasMlp Module)
open Verif.Convert (Transform natLe)
open Verif.LoadTask (DType)

variable {M K V W : Type} [DecidableEq M]

/-! ## What has to be there -/

/-- All three feed-forward matrices of all layers are in every expert's model. -/
def ExpertsStored (disk : M → Loader V) (c : Config M K) (numLayers : Nat) : Prop :=
  ∀ layer < numLayers, ∀ e ∈ c.experts, ∀ p ∈ [cs!"gate_proj", cs!"up_proj", cs!"down_proj"], ∃ t, disk e.source (sourceName layer p) = some t

/-- All weights outside of the feed-forward part that are not optional are in the base model, under one of the names they can have. -/
def BaseStored (disk : M → Loader V) (c : Config M K) (weights : List WeightInfo) : Prop :=
  ∀ w ∈ weights, w.optional = false → ¬ cs!".mlp." <:+: w.name → ∃ t, FirstStored (disk c.base) (namesOf w) t

/-- The same where only alternative names are looked at, not those of tied weights. -/
def BaseStoredPlain (disk : M → Loader V) (c : Config M K) (weights : List WeightInfo) : Prop :=
  ∀ w ∈ weights, w.optional = false → ¬ cs!".mlp." <:+: w.name → ∃ t, FirstStored (disk c.base) (w.name :: w.aliases.getD []) t

/-- All listed weights of the feed-forward part are in the models of the experts and of the shared expert. -/
def FeedForwardStored (disk : M → Loader V) (c : Config M K) (weights : List WeightInfo) : Prop :=
  ∀ w ∈ weights, w.optional = false → cs!".mlp." <:+: w.name → (∀ e ∈ c.experts, ∃ t, FirstStored (disk e.source) (namesOf w) t) ∧
    ∀ e rest, c.shared = some (e :: rest) → ∃ t, FirstStored (disk e.source) (namesOf w) t

/-! ## Packed experts -/

theorem readLayer_total {ops : Ops V K} {disk : M → Loader V} {c : Config M K} {params : List (Str × Str)} {layer : Nat}
    (h : ∀ e ∈ c.experts, ∀ p ∈ params, ∃ t, disk e.source (sourceName layer p.1) = some t) : ∃ xs, readLayer ops disk c params layer = .ok xs := by
  unfold readLayer
  refine each_total ?_
  rintro ⟨e, i⟩ hp
  have he := List.mem_of_getElem? (List.mem_zipIdx_iff_getElem?.1 hp)
  refine each_total ?_
  intro p hp'
  obtain ⟨t, ht⟩ := h e he p hp'
  unfold readPart
  simp only [loaderFor_expert disk c he, layerName_source, ht]
  exact ⟨_, rfl⟩

theorem packLayer_total [Inhabited V] {ops : Ops V K} {disk : M → Loader V} {c : Config M K} {params : List (Str × Str)} {transforms : List (Transform V)}
    {layer : Nat} {g u d : Str} (hc : c.experts ≠ [])
    (hgu : params.filter (fun p => decide (p.1 = cs!"down_proj") = false) = [(cs!"gate_proj", g), (cs!"up_proj", u)])
    (hd : params.filter (fun p => decide (p.1 = cs!"down_proj") = true) = [(cs!"down_proj", d)])
    (hgune : cs!"." ++ g ++ cs!".weight" ≠ cs!"." ++ u ++ cs!".weight") (hord : natLe (cs!"." ++ g ++ cs!".weight") (cs!"." ++ u ++ cs!".weight") = true)
    {pack2 pack1 : List (List V) → V}
    (hp2 : PacksExperts transforms layer [cs!"." ++ g ++ cs!".weight", cs!"." ++ u ++ cs!".weight"] cs!"experts.gate_up_proj" pack2)
    (hp1 : PacksExperts transforms layer [cs!"." ++ d ++ cs!".weight"] cs!"experts.down_proj" pack1)
    (h : ∀ e ∈ c.experts, ∀ p ∈ params, ∃ t, disk e.source (sourceName layer p.1) = some t) :
    ∃ x, packLayer ops disk c { params := params, transforms := transforms } layer = .ok x := by
  obtain ⟨xs, hr⟩ := readLayer_total (ops := ops) h
  unfold packLayer
  rw [hr]
  obtain ⟨v, -, rfl⟩ := readLayer_ok hr
  have hn : 0 < c.experts.length := List.length_pos_iff.2 hc
  simp only
  rw [partsOf_eq, partsOf_eq, hgu, hd]
  rw [convertSave_parts hn (by simp) (by simpa using hgune) (by simpa using hord) (by simpa using hp2) v,
    convertSave_parts hn (by simp) (by simp) (by simp) (by simpa using hp1) v]
  exact ⟨_, rfl⟩

/-- **C57** With all required weights in the base model, and the experts' matrices in theirs, a mixture in the Mixtral layout is written. -/
theorem C57_mixtral_finishes [Inhabited V] (ops : Ops V K) {disk : M → Loader V} {c : Config M K} {weights : List WeightInfo} {transforms : List (Transform V)}
    {numLayers : Nat} {routers : List V} (hc : c.experts ≠ []) {pack2 pack1 : Nat → List (List V) → V}
    (hp2 : ∀ layer, PacksExperts transforms layer [cs!".w1.weight", cs!".w3.weight"] cs!"experts.gate_up_proj" (pack2 layer))
    (hp1 : ∀ layer, PacksExperts transforms layer [cs!".w2.weight"] cs!"experts.down_proj" (pack1 layer))
    (hlen : routers.length = numLayers) (hadd : ∀ w ∈ weights, Addable w) (hbase : BaseStored disk c weights) (hexp : ExpertsStored disk c numLayers) :
    ∃ saved, writeMixtral ops disk c weights transforms numLayers routers = .ok saved := by
  unfold writeMixtral
  rw [if_neg (by rw [hlen]; simp)]
  obtain ⟨xs, hxs⟩ : ∃ xs, each (fun w => if hasMlp w.name then .ok [] else asList (copyOut ops w (loaderFor disk c c.base) (none : Option (Expert M K)) false w.name)) weights = .ok xs := by
    refine each_total ?_
    intro w hw
    cases hm : hasMlp w.name with
    | true => exact ⟨[], by simp⟩
    | false =>
      simp only [Bool.false_eq_true, if_false]
      rw [loaderFor_base]
      refine copyOut_total (hadd w hw) (fun ho => hbase w hw ho ?_)
      rw [← hasMlp_iff, hm]
      simp
  rw [hxs]
  simp only
  obtain ⟨ys, hys⟩ : ∃ ys, each (packLayer ops disk c { params := mixtralParams, transforms := transforms }) (List.range numLayers) = .ok ys := by
    refine each_total ?_
    intro layer hl
    refine packLayer_total (g := cs!"w1") (u := cs!"w3") (d := cs!"w2") hc (by decide) (by decide) (by decide) (by decide) (hp2 layer) (hp1 layer) ?_
    intro e he p hp
    refine hexp layer (List.mem_range.1 hl) e he p.1 ?_
    revert p
    decide
  rw [hys]
  exact ⟨_, rfl⟩

/-- **C57** And one in the Qwen3 layout. -/
theorem C57_qwen3_finishes [Inhabited V] (ops : Ops V K) {disk : M → Loader V} {c : Config M K} {weights : List WeightInfo} {transforms : List (Transform V)}
    {numLayers : Nat} (routers : List V) (hc : c.experts ≠ []) {pack2 pack1 : Nat → List (List V) → V}
    (hp2 : ∀ layer, PacksExperts transforms layer [cs!".gate_proj.weight", cs!".up_proj.weight"] cs!"experts.gate_up_proj" (pack2 layer))
    (hp1 : ∀ layer, PacksExperts transforms layer [cs!".down_proj.weight"] cs!"experts.down_proj" (pack1 layer))
    (hbase : BaseStoredPlain disk c weights) (hexp : ExpertsStored disk c numLayers) :
    ∃ saved, writeQwen3 ops disk c weights transforms numLayers routers = .ok saved := by
  unfold writeQwen3
  obtain ⟨xs, hxs⟩ : ∃ xs, each (fun w => if hasMlp w.name then .ok [] else qwen3Base ops (disk c.base) w) weights = .ok xs := by
    refine each_total ?_
    intro w hw
    cases hm : hasMlp w.name with
    | true => exact ⟨[], by simp⟩
    | false =>
      simp only [Bool.false_eq_true, if_false]
      unfold qwen3Base
      cases hg : get (disk c.base) w.name (w.aliases.getD []) with
      | some t => exact ⟨_, rfl⟩
      | none =>
        cases ho : w.optional with
        | true => exact ⟨_, rfl⟩
        | false =>
          obtain ⟨t, ht⟩ := hbase w hw ho (by rw [← hasMlp_iff, hm]; simp)
          rw [← get_some_iff, hg] at ht
          cases ht
  rw [hxs]
  simp only
  obtain ⟨ys, hys⟩ : ∃ ys, each (packLayer ops disk c { params := qwen3Params, transforms := transforms }) (List.range numLayers) = .ok ys := by
    refine each_total ?_
    intro layer hl
    refine packLayer_total (g := cs!"gate_proj") (u := cs!"up_proj") (d := cs!"down_proj") hc (by decide) (by decide) (by decide) (by decide) (hp2 layer) (hp1 layer) ?_
    intro e he p hp
    refine hexp layer (List.mem_range.1 hl) e he p.1 ?_
    revert p
    decide
  rw [hys]
  exact ⟨_, rfl⟩

theorem qwenRouters_total (ops : Ops V K) : ∀ (rs gs : List V) (k : Nat), rs.length ≤ gs.length → ∃ ys, qwenRouters ops k rs gs = .ok ys
  | [], _, _, _ => ⟨[], by unfold qwenRouters; rfl⟩
  | _ :: _, [], _, h => by simp at h
  | r :: rs, g :: gs, k, h => by
    obtain ⟨ys, hys⟩ := qwenRouters_total ops rs gs (k + 1) (by simpa using h)
    unfold qwenRouters
    rw [hys]
    exact ⟨_, rfl⟩

/-- **C57** And one in the Qwen layout, where biases of projections can be missing. -/
theorem C57_qwen_finishes (ops : Ops V K) {disk : M → Loader V} {c : Config M K} {weights : List WeightInfo} {routers sharedRouters : List V}
    {s : Expert M K} {rest : List (Expert M K)} (hs : c.shared = some (s :: rest)) (hshared : SharedLoaded c) (hlen : routers.length ≤ sharedRouters.length)
    (hadd : ∀ w ∈ weights, Addable w) (hmlp : FeedForwardStored disk c weights)
    (hbase : ∀ w ∈ weights, w.optional = false → ¬ cs!".mlp." <:+: w.name → ¬ cs!"_proj.bias" <:+ w.name →
      ∃ t, FirstStored (disk c.base) (w.name :: w.aliases.getD []) t) :
    ∃ saved, writeQwen ops disk c weights routers sharedRouters = .ok saved := by
  unfold writeQwen
  rw [hs]
  simp only
  obtain ⟨xs, hxs⟩ : ∃ xs, each (qwenWeight ops disk c s) weights = .ok xs := by
    refine each_total ?_
    intro w hw
    unfold qwenWeight
    cases hm : hasMlp w.name with
    | true =>
      rw [if_pos rfl]
      have hi := (hasMlp_iff _).1 hm
      obtain ⟨xs, hxs⟩ := copyExperts_total (ops := ops) (hadd w hw) (fun ho => (hmlp w hw ho hi).1)
      rw [hxs]
      simp only
      have hl : loaderFor disk c s.source = some (disk s.source) := by
        unfold loaderFor
        rw [if_pos (hshared s rest hs)]
      rw [hl]
      obtain ⟨z, hz⟩ := copyOut_total (ops := ops) (e := some s) (down := hasDown w.name) (out := sharedName cs!"shared_expert" w.name)
        (hadd w hw) (fun ho => (hmlp w hw ho hi).2 s rest hs)
      rw [hz]
      exact ⟨_, rfl⟩
    | false =>
      rw [if_neg (by simp)]
      unfold qwenBase
      cases hg : get (disk c.base) w.name (w.aliases.getD []) with
      | some t => exact ⟨_, rfl⟩
      | none =>
        simp only
        cases hb : endsWith cs!"_proj.bias" w.name with
        | true => exact ⟨_, rfl⟩
        | false =>
          simp only [Bool.false_eq_true, if_false]
          cases ho : w.optional with
          | true => exact ⟨_, rfl⟩
          | false =>
            obtain ⟨t, ht⟩ := hbase w hw ho (by rw [← hasMlp_iff, hm]; simp) (by
              intro hc
              unfold endsWith at hb
              rw [List.isSuffixOf_iff_suffix.2 hc] at hb
              cases hb)
            rw [← get_some_iff, hg] at ht
            cases ht
  rw [hxs]
  simp only
  obtain ⟨ys, hys⟩ := qwenRouters_total ops routers sharedRouters 0 hlen
  rw [hys]
  exact ⟨_, rfl⟩

/-! ## The whole run -/

/-- What a layout needs of the models. -/
def Stocked (env : Env M K V W) (c : Config M K) : OutArch → Prop
  | .mixtral => BaseStored env.disk c (env.weights .mixtral c.base) ∧ ExpertsStored env.disk c (env.layers c.base)
  | .qwen3 => BaseStoredPlain env.disk c (env.weights .qwen3 c.base) ∧ ExpertsStored env.disk c (env.layers c.base)
  | .deepseek => SharedLoaded c ∧ FeedForwardStored env.disk c (env.weights .deepseek c.base) ∧ BaseStored env.disk c (env.weights .deepseek c.base)
  | .qwen => SharedLoaded c ∧ FeedForwardStored env.disk c (env.weights .qwen c.base) ∧
      ∀ w ∈ env.weights .qwen c.base, w.optional = false → ¬ cs!".mlp." <:+: w.name → ¬ cs!"_proj.bias" <:+ w.name →
        ∃ t, FirstStored (env.disk c.base) (w.name :: w.aliases.getD []) t

/-- **C124** A mixture is made whenever the configuration is acceptable, its mode one of the known ones, the prompts of shared experts given for all or for none, a layout fits, the models store what that
layout needs, the base model's configuration has the entries it is computed from, the data type is known, and, in the DeepSeek layout, the output directory is there. -/
theorem C124_succeeds [Inhabited V] {env : Env M K V W} {pack2 pack1 : OutArch → Nat → List (List V) → V} (hs : Sound env pack2 pack1) (source : Str)
    {c : Config M K} {flags : Flags} {dir : Dir V} {a : OutArch} {d : Option DType} (hprobe : ∀ p, (env.gates.probe c.gateMode p).length = env.layers c.base)
    (hadd : ∀ w ∈ env.weights a c.base, Addable w) (hbad : isBad c flags.allowAllSame = false) (hmode : IsRandom c.gateMode ∨ IsProbe c.gateMode)
    (hshared : ∀ s ∈ c.sharedList, ∀ s' ∈ c.sharedList, (s.positive.getD [] = [] ↔ s'.positive.getD [] = [])) (ha : selectArch c env.typeOf = some a)
    (hd : selectDtype flags.dtype (env.cfg c.base) = .ok d) (hb : HasEntries env.lib (env.cfg c.base) a) (hst : Stocked env c a) (hdir : a = .deepseek → dir.there = true) :
    ∃ dir', main env source c flags dir = (dir', none) := by
  obtain ⟨rows, hrows⟩ := C58_accepted_routers env.gates (env.layers c.base) hbad hmode hshared
  have hlen := (C57_router_rows hprobe hrows).1
  have hacc : 1 ≤ c.expertsPerToken ∧ c.expertsPerToken ≤ c.experts.length := by
    have hb := (C58_refused_partial c flags.allowAllSame).not.1 (by rw [hbad]; simp)
    rw [not_or, not_not] at hb
    exact hb.1
  have hne : c.experts ≠ [] := by
    intro he
    rw [he] at hacc
    simp only [List.length_nil] at hacc
    omega
  have hts : ∃ ts, writeTensors env c d rows a = .ok ts := by
    unfold writeTensors
    cases a with
    | mixtral => exact C57_mixtral_finishes (env.ops d) hne hs.mixtral2 hs.mixtral1 (by rw [List.length_map, hlen]) hadd hst.1 hst.2
    | deepseek => exact C57_deepseek_finishes (env.ops d) _ hadd hst.1 hst.2.1 hst.2.2
    | qwen =>
      have hf := ((C76_chosen c env.typeOf .qwen).1 ha).1.2
      have hsh : ∃ s rest, c.shared = some (s :: rest) := by
        cases hc : c.shared with
        | none => exfalso; revert hf; unfold Fits Config.sharedList; rw [hc]; simp
        | some l =>
          cases l with
          | nil => exfalso; revert hf; unfold Fits Config.sharedList; rw [hc]; simp
          | cons s rest => exact ⟨s, rest, rfl⟩
      obtain ⟨s, rest, hsh⟩ := hsh
      exact C57_qwen_finishes (env.ops d) hsh hst.1 (by simp) hadd hst.2.1 hst.2.2
    | qwen3 => exact C57_qwen3_finishes (env.ops d) _ hne hs.qwen32 hs.qwen31 hst.1 hst.2
  obtain ⟨ts, hts⟩ := hts
  have := C124_runs (source := source) (dir := dir) hprobe hbad ha hrows hd hb hts hdir
  exact ⟨(main env source c flags dir).1, Prod.ext rfl this⟩

/-- The definitions the layouts start from: alternative names do not get in the way, for every number of layers. -/
def modulePlain (m : Module) : Bool := (m.pre ++ m.post ++ m.layers).all (fun w => w.optional || decide (w.aliases = none))

/-- C57: in the shipped definitions of Llama, Mistral, Qwen2 and Qwen3 models, no weight that is required has alternative names; this is what the theorems above ask of them. -/
theorem C57_shipped_addable (ms : List Module) (hms : ms ∈ [Verif.Arch.Data.llama, Verif.Arch.Data.mistral, Verif.Arch.Data.qwen2, Verif.Arch.Data.qwen3]) (n : Nat) {ws : List WeightInfo}
    (h : Verif.Arch.allWeights (ms.zip [n]) = .ok ws) : ∀ w ∈ ws, Addable w := by
  have hin : ∃ m, ms = [m] ∧ modulePlain m = true ∧ m.weightPrefix = none := by
    simp only [List.mem_cons, List.not_mem_nil, or_false] at hms
    rcases hms with rfl | rfl | rfl | rfl
    · exact ⟨_, rfl, by decide +kernel, rfl⟩
    · exact ⟨_, rfl, by decide +kernel, rfl⟩
    · exact ⟨_, rfl, by decide +kernel, rfl⟩
    · exact ⟨_, rfl, by decide +kernel, rfl⟩
  obtain ⟨m, rfl, hok, hpre⟩ := hin
  intro v hv
  obtain ⟨p, hp, us, hus, u, hu, rfl⟩ := (Verif.Arch.C63_model _ _ h v).1 hv
  rw [List.zip_cons_cons, List.zip_nil_right, List.mem_singleton] at hp
  subst hp
  simp only at hus
  rw [hpre, prefixWeight_none]
  unfold modulePlain at hok
  rw [List.all_eq_true] at hok
  have key : ∀ w (N : Int) layer, w ∈ m.pre ++ m.post ++ m.layers → Verif.Arch.substitute w N layer = .ok u → Addable u := by
    intro w N layer hw hsub
    obtain ⟨-, -, h3, -, -, -, h7, -⟩ := (Verif.Arch.C63_weight _ _ _ _).1 hsub
    have := hok w hw
    rw [Bool.or_eq_true, decide_eq_true_eq] at this
    rcases this with ho | hn
    · exact Or.inl (h7.trans ho)
    · exact Or.inr (Or.inl (by rw [h3 hn]; rfl))
  rcases ((Verif.Arch.C63_module m n us hus).1 u).1 hu with ⟨w, hw, hsub⟩ | ⟨i, _, w, hw, hsub⟩
  · exact key w _ _ (List.mem_append_left _ hw) hsub
  · exact key w _ _ (List.mem_append_right _ hw) hsub

/-! ## Cases -/

theorem shortDisk_stored (m : Nat) (name : Str) : ∃ t, shortDisk m name = some t := by
  unfold shortDisk
  split
  · exact ⟨_, rfl⟩
  · split
    · exact ⟨_, rfl⟩
    · split <;> exact ⟨_, rfl⟩

theorem shortDisk_first (m : Nat) (name : Str) (names : List Str) : ∃ t, FirstStored (shortDisk m) (name :: names) t := by
  obtain ⟨t, ht⟩ := shortDisk_stored m name
  exact ⟨t, [], name, names, rfl, ht, by simp⟩

theorem shippedOne_addable (ms : List Module) (h : ms ∈ [Verif.Arch.Data.llama, Verif.Arch.Data.mistral, Verif.Arch.Data.qwen2, Verif.Arch.Data.qwen3]) :
    ∀ w ∈ shippedOne ms, Addable w := C57_shipped_addable ms h 1 (shippedOne_ok ms h).1

theorem sample_stocked (kind : Str) (c : Config Nat Nat) (hc : SharedLoaded c) (a : OutArch) : Stocked (sampleEnv kind) c a := by
  have h1 : ∀ ws n, FeedForwardStored shortDisk c ws ∧ BaseStored shortDisk c ws ∧ BaseStoredPlain shortDisk c ws ∧ ExpertsStored shortDisk c n := fun ws n =>
    ⟨fun w _ _ _ => ⟨fun e _ => shortDisk_first _ _ _, fun e _ _ => shortDisk_first _ _ _⟩, fun w _ _ _ => shortDisk_first _ _ _, fun w _ _ _ => shortDisk_first _ _ _,
      fun layer _ e _ p _ => shortDisk_stored _ _⟩
  cases a with
  | mixtral => exact ⟨(h1 _ 0).2.1, (h1 [] _).2.2.2⟩
  | deepseek => exact ⟨hc, (h1 _ 0).1, (h1 _ 0).2.1⟩
  | qwen => exact ⟨hc, (h1 _ 0).1, fun w _ _ _ _ => shortDisk_first _ _ _⟩
  | qwen3 => exact ⟨(h1 _ 0).2.2.1, (h1 [] _).2.2.2⟩

/-- The hypotheses of `C124_succeeds` are met: two Llama models as experts, in the Mixtral layout. -/
example : ∃ dir', main (sampleEnv cs!"llama") cs!"text" plainTwo {} {} = (dir', none) :=
  C124_succeeds (pack2 := fun _ _ => packed) (pack1 := fun _ _ => packed) (a := .mixtral) (d := some .bfloat16)
    { mixtral2 := packer_two (by decide) _ _, mixtral1 := packer_one (by decide) (by decide) _ _, qwen32 := packer_two (by decide) _ _, qwen31 := packer_one (by decide) (by decide) _ _,
      single := fun a _ => by
        cases a
        · exact (shippedOne_ok Verif.Arch.Data.mistral (by simp)).2
        · exact (shippedOne_ok Verif.Arch.Data.llama (by simp)).2
        · exact (shippedOne_ok Verif.Arch.Data.qwen2 (by simp)).2
        · exact (shippedOne_ok Verif.Arch.Data.qwen3 (by simp)).2 }
    cs!"text" (fun _ => rfl) (shippedOne_addable Verif.Arch.Data.mistral (by simp)) (by decide) (Or.inr (by unfold IsProbe; decide)) (by intro s hs; cases hs) (by decide)
    (by decide +kernel) (Or.inr ⟨.int 2048, by rfl⟩) (sample_stocked _ _ (by intro e rest h; cases h) _) (by intro h; cases h)

/-- The hypotheses of `C57_qwen_finishes` are met: a shared expert that is the base model. -/
example : ∃ saved, writeQwen textOps shortDisk twoExperts (shippedOne Verif.Arch.Data.qwen2) [cs!"r"] [cs!"s"] = .ok saved :=
  C57_qwen_finishes textOps rfl (by intro e rest h; cases h; exact Or.inl rfl) (by simp) (shippedOne_addable Verif.Arch.Data.qwen2 (by simp))
    (fun w _ _ _ => ⟨fun e _ => shortDisk_first _ _ _, fun e _ _ => shortDisk_first _ _ _⟩) (fun w _ _ _ _ => shortDisk_first _ _ _)

end Verif.Moe
