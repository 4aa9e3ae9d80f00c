import Verif.Model.MoeBuild
import Verif.Props.MoeShipped
import Verif.Props.ArchKnown

/-! # C124: mixtures of experts as a whole: what a run leaves in the output directory, and that its result can be merged further -/

set_option linter.unusedSectionVars false

namespace Verif.Moe

open Verif.ModelRef (Str)
open Verif.Arch (WeightInfo hasMlp Module expand substitute)
open Verif.LoadTask (DType)

variable {M K V W : Type} [DecidableEq M]

/-! ## The configuration -/

/-- The name of the architecture a layout is read as. -/
def className : OutArch → Str
  | .mixtral => cs!"MixtralForCausalLM"
  | .deepseek => cs!"DeepseekForCausalLM"
  | .qwen => cs!"Qwen2MoeForCausalLM"
  | .qwen3 => cs!"Qwen3MoeForCausalLM"

/-- The entry with the number of experts. -/
def countKey : OutArch → Str
  | .mixtral => cs!"num_local_experts"
  | .deepseek => cs!"n_routed_experts"
  | .qwen => cs!"num_experts"
  | .qwen3 => cs!"num_experts"

/-- The entries of a base model's configuration that are not taken over as they are. -/
def changedKeys : OutArch → List Str
  | .mixtral => [cs!"architectures", cs!"num_local_experts", cs!"num_experts_per_tok", cs!"sliding_window"]
  | .deepseek => [cs!"architectures", cs!"model_type", cs!"n_routed_experts", cs!"n_shared_experts", cs!"num_experts_per_tok",
      cs!"first_k_dense_replace", cs!"moe_layer_freq", cs!"scoring_func", cs!"norm_topk_prob", cs!"moe_intermediate_size", cs!"auto_map"]
  | .qwen => [cs!"architectures", cs!"num_experts", cs!"num_experts_per_tok", cs!"decoder_sparse_step", cs!"norm_topk_prob", cs!"sliding_window",
      cs!"use_sliding_window", cs!"shared_expert_intermediate_size", cs!"moe_intermediate_size"]
  | .qwen3 => [cs!"architectures", cs!"num_experts", cs!"num_experts_per_tok", cs!"decoder_sparse_step", cs!"norm_topk_prob", cs!"moe_intermediate_size"]

/-- The library's configuration classes keep a given entry. -/
def Keeps (lib : Lib) (k : Str) : Prop := ∀ cls d v, d k = some v → lib.make cls d k = some v

theorem set_same (c : Cfg) (k : Str) (v : Val) : c.set k v k = some v := by simp [Cfg.set]

theorem set_other (c : Cfg) {k x : Str} (v : Val) (h : x ≠ k) : c.set k v x = c x := by simp [Cfg.set, h]

theorem orDefault_pos {n d : Int} (h : 1 ≤ n) : orDefault n d = n := by
  unfold orDefault
  rw [if_neg (by omega)]

/-- C124: the configuration written for a layout: it names the layout, counts exactly the experts, has the number of experts per token asked
for, and has every other entry of the base model's configuration that the library's classes keep. -/
theorem C124_config (lib : Lib) (base : Cfg) (c : Config M K) (a : OutArch) (cfg : Cfg) (hp : 1 ≤ c.expertsPerToken) (h : generate lib base c a = .ok cfg) :
    cfg cs!"architectures" = some (.texts [className a]) ∧
    cfg (countKey a) = some (.int c.experts.length) ∧
    cfg cs!"num_experts_per_tok" = some (.int c.expertsPerToken) ∧
    ∀ k v, k ∉ changedKeys a → Keeps lib k → base k = some v → cfg k = some v := by
  cases a with
  | mixtral =>
    simp only [generate, generateMixtral] at h
    split at h
    · cases h
    · split at h
      · cases h
      · rename_i b hb
        simp only [Except.ok.injEq] at h
        subst h
        refine ⟨?_, ?_, ?_, ?_⟩
        · rw [set_other _ _ (by decide), set_other _ _ (by decide), set_other _ _ (by decide), set_same]; rfl
        · show Cfg.set _ _ _ cs!"num_local_experts" = _
          rw [set_other _ _ (by decide), set_other _ _ (by decide), set_same]
        · rw [set_other _ _ (by decide), set_same, orDefault_pos hp]
        · intro k v hk hkeep hv
          simp only [changedKeys, List.mem_cons, List.not_mem_nil, or_false, not_or] at hk
          obtain ⟨h1, h2, h3, h4⟩ := hk
          rw [set_other _ _ h4, set_other _ _ h3, set_other _ _ h2, set_other _ _ h1]
          refine hkeep _ _ _ ?_
          split at hb
          · cases hb; exact hv
          · split at hb
            · cases hb
            · rename_i w hw
              simp only [Except.ok.injEq] at hb
              subst hb
              by_cases hm : k = cs!"max_position_embeddings"
              · subst hm
                rw [set_same, ← hw, hv]
              · rw [set_other _ _ hm, set_other _ _ h4]
                exact hkeep _ _ _ hv
  | deepseek =>
    simp only [generate, generateDeepseek] at h
    split at h
    · cases h
    · split at h
      · cases h
      · rename_i w hw
        simp only [Except.ok.injEq] at h
        subst h
        refine ⟨?_, ?_, ?_, ?_⟩
        · simp [Cfg.set, className]
        · simp [Cfg.set, countKey]
        · simp [Cfg.set, orDefault_pos hp]
        · intro k v hk _ hv
          simp only [changedKeys, List.mem_cons, List.not_mem_nil, or_false, not_or] at hk
          obtain ⟨h1, h2, h3, h4, h5, h6, h7, h8, h9, h10, h11⟩ := hk
          rw [set_other _ _ h11, set_other _ _ h10, set_other _ _ h9, set_other _ _ h8, set_other _ _ h7, set_other _ _ h6, set_other _ _ h5,
            set_other _ _ h4, set_other _ _ h3, set_other _ _ h2, set_other _ _ h1]
          exact hv
  | qwen =>
    simp only [generate, generateQwen] at h
    split at h
    · cases h
    · simp only [Except.ok.injEq] at h
      subst h
      refine ⟨?_, ?_, ?_, ?_⟩
      · simp [Cfg.set, className]
      · simp [Cfg.set, countKey]
      · simp [Cfg.set, orDefault_pos hp]
      · intro k v hk hkeep hv
        simp only [changedKeys, List.mem_cons, List.not_mem_nil, or_false, not_or] at hk
        obtain ⟨h1, h2, h3, h4, h5, h6, h7, h8, h9⟩ := hk
        rw [set_other _ _ h9, set_other _ _ h8, set_other _ _ h7, set_other _ _ h6, set_other _ _ h5, set_other _ _ h4, set_other _ _ h3,
          set_other _ _ h2, set_other _ _ h1]
        exact hkeep _ _ _ hv
  | qwen3 =>
    simp only [generate, generateQwen3] at h
    split at h
    · cases h
    · simp only [Except.ok.injEq] at h
      subst h
      refine ⟨?_, ?_, ?_, ?_⟩
      · simp [Cfg.set, className]
      · simp [Cfg.set, countKey]
      · simp [Cfg.set, orDefault_pos hp]
      · intro k v hk hkeep hv
        simp only [changedKeys, List.mem_cons, List.not_mem_nil, or_false, not_or] at hk
        obtain ⟨h1, h2, h3, h4, h5, h6⟩ := hk
        rw [set_other _ _ h6, set_other _ _ h5, set_other _ _ h4, set_other _ _ h3, set_other _ _ h2, set_other _ _ h1]
        exact hkeep _ _ _ hv

/-- C124: the entries special to the layouts: sizes of experts are the base model's feed-forward size, every layer has experts, the router's
weights are normalised, sliding windows are off, a shared expert is counted. -/
theorem C124_config_special (lib : Lib) (base : Cfg) (c : Config M K) (a : OutArch) (cfg : Cfg) (h : generate lib base c a = .ok cfg)
    (hkeep : Keeps lib cs!"intermediate_size") (size : Val) (hsize : base cs!"intermediate_size" = some size) :
    match (generalizing := false) a with
    | .mixtral => cfg cs!"intermediate_size" = some size ∧ cfg cs!"sliding_window" = some .null ∧ c.shared.getD [] = []
    | .deepseek => cfg cs!"intermediate_size" = some size ∧ cfg cs!"moe_intermediate_size" = some size ∧ cfg cs!"model_type" = some (.text cs!"deepseek") ∧
        cfg cs!"n_shared_experts" = some (if (c.shared.getD []).isEmpty then .null else .int 1) ∧ (c.shared.getD []).length ≤ 1 ∧
        cfg cs!"first_k_dense_replace" = some (.int 0) ∧ cfg cs!"moe_layer_freq" = some (.int 1) ∧ cfg cs!"scoring_func" = some (.text cs!"softmax") ∧
        cfg cs!"norm_topk_prob" = some (.bool true)
    | .qwen => cfg cs!"intermediate_size" = some size ∧ cfg cs!"moe_intermediate_size" = some size ∧
        cfg cs!"shared_expert_intermediate_size" = some size ∧ cfg cs!"decoder_sparse_step" = some (.int 1) ∧
        cfg cs!"norm_topk_prob" = some (.bool true) ∧ cfg cs!"sliding_window" = some .null ∧ cfg cs!"use_sliding_window" = some (.bool false)
    | .qwen3 => cfg cs!"intermediate_size" = some size ∧ cfg cs!"moe_intermediate_size" = some size ∧
        cfg cs!"decoder_sparse_step" = some (.int 1) ∧ cfg cs!"norm_topk_prob" = some (.bool true) := by
  cases a with
  | mixtral =>
    simp only
    simp only [generate, generateMixtral] at h
    split at h
    · cases h
    · rename_i hsh
      have hsh' : c.shared.getD [] = [] := by
        rw [ne_eq, not_not] at hsh
        exact List.eq_nil_of_length_eq_zero hsh
      split at h
      · cases h
      · rename_i b hb
        simp only [Except.ok.injEq] at h
        subst h
        refine ⟨?_, set_same _ _ _, hsh'⟩
        rw [set_other _ _ (by decide), set_other _ _ (by decide), set_other _ _ (by decide), set_other _ _ (by decide)]
        refine hkeep _ _ _ ?_
        split at hb
        · cases hb; exact hsize
        · split at hb
          · cases hb
          · simp only [Except.ok.injEq] at hb
            subst hb
            rw [set_other _ _ (by decide), set_other _ _ (by decide)]
            exact hkeep _ _ _ hsize
  | deepseek =>
    simp only
    simp only [generate, generateDeepseek] at h
    split at h
    · cases h
    · rename_i hle
      split at h
      · cases h
      · rename_i w hw
        simp only [Except.ok.injEq] at h
        subst h
        have hws : w = size := by
          simp only [Cfg.set] at hw
          rw [if_neg (by decide), if_neg (by decide), if_neg (by decide), if_neg (by decide), if_neg (by decide), if_neg (by decide),
            if_neg (by decide), if_neg (by decide), if_neg (by decide), hsize] at hw
          exact (Option.some.inj hw).symm
        subst hws
        have hlen : (c.shared.getD []).length ≤ 1 := by
          have : c.sharedList.length = (c.shared.getD []).length := rfl
          omega
        refine ⟨?_, ?_, ?_, ?_, hlen, ?_, ?_, ?_, ?_⟩
        · simp [Cfg.set, hsize]
        · simp [Cfg.set]
        · simp [Cfg.set]
        · have e : (if c.sharedList.length = 0 then Val.null else Val.int c.sharedList.length) = (if (c.shared.getD []).isEmpty then Val.null else Val.int 1) := by
            have hl : c.sharedList.length = (c.shared.getD []).length := rfl
            rw [hl]
            generalize c.shared.getD [] = l at hlen ⊢
            match l with
            | [] => rfl
            | [x] => rfl
            | x :: y :: r => simp at hlen
          rw [← e]
          rw [set_other _ _ (by decide), set_other _ _ (by decide), set_other _ _ (by decide), set_other _ _ (by decide), set_other _ _ (by decide),
            set_other _ _ (by decide), set_other _ _ (by decide), set_same]
        all_goals simp [Cfg.set]
  | qwen =>
    simp only
    simp only [generate, generateQwen] at h
    split at h
    · cases h
    · rename_i w hw
      simp only [Except.ok.injEq] at h
      subst h
      have hws : w = size := by
        have : (lib.make .qwen2moe base) cs!"intermediate_size" = some size := hkeep _ _ _ hsize
        simp only [Cfg.set] at hw
        rw [if_neg (by decide), if_neg (by decide), if_neg (by decide), if_neg (by decide), if_neg (by decide), if_neg (by decide),
          if_neg (by decide), this] at hw
        exact (Option.some.inj hw).symm
      subst hws
      refine ⟨?_, ?_, ?_, ?_, ?_, ?_, ?_⟩
      · rw [set_other _ _ (by decide), set_other _ _ (by decide)]; exact hw
      all_goals simp [Cfg.set]
  | qwen3 =>
    simp only
    simp only [generate, generateQwen3] at h
    split at h
    · cases h
    · rename_i w hw
      simp only [Except.ok.injEq] at h
      subst h
      have hws : w = size := by
        have : (lib.make .qwen3moe base) cs!"intermediate_size" = some size := hkeep _ _ _ hsize
        simp only [Cfg.set] at hw
        rw [if_neg (by decide), if_neg (by decide), if_neg (by decide), if_neg (by decide), if_neg (by decide), this] at hw
        exact (Option.some.inj hw).symm
      subst hws
      refine ⟨?_, ?_, ?_, ?_⟩
      · rw [set_other _ _ (by decide)]; exact hw
      all_goals simp [Cfg.set]

/-! ## Reading the result again -/

/-- A weight outside the layers that is listed as it is. -/
def plainWeight (w : WeightInfo) : Bool :=
  decide ('{' ∉ w.name) && decide (w.aliases = none) && (w.tiedNames.getD []).all (fun t => decide ('{' ∉ t)) && (w.optional || decide (w.tiedNames = none)) &&
    !hasMlp w.name

/-- A weight of a layer: only the number of the layer is filled in. -/
def layerWeight (w : WeightInfo) : Bool :=
  cs!"model.layers.${layer_index}".isPrefixOf w.name && decide ('$' ∉ w.name.drop 27) && decide (w.aliases = none) && decide (w.tiedNames = none) &&
    decide (w.optional = false)

/-- The definition of a model and that of a mixture made of such models. -/
def pairOk (m m' : Module) : Bool :=
  decide (m.weightPrefix = none) && decide (m'.weightPrefix = none) && decide (m.overrideNumLayers = none) && decide (m'.overrideNumLayers = none) &&
    (m.pre ++ m.post).all plainWeight && decide (m'.pre ++ m'.post = m.pre ++ m.post) && m.layers.all layerWeight && m'.layers.all layerWeight &&
    m.layers.all (fun w => decide (w ∈ m'.layers) || hasMlp (w.name.drop 27)) &&
    m'.layers.all (fun w => (decide (w ∈ m.layers) && !hasMlp (w.name.drop 27)) ||
      decide (w.name.drop 27 ∈ [cs!".mlp.experts.gate_up_proj", cs!".mlp.experts.down_proj", cs!".mlp.gate.weight"])) &&
    [cs!".mlp.experts.gate_up_proj", cs!".mlp.experts.down_proj", cs!".mlp.gate.weight"].all (fun r => m'.layers.any (fun w => decide (w.name.drop 27 = r)))

theorem expandList_plain {n : Nat} {layer : Option Int} {l : List Str} (h : ∀ t ∈ l, '{' ∉ t) : Verif.Arch.expandList n layer l = .ok l := by
  induction l with
  | nil => rfl
  | cons t l ih =>
    simp only [Verif.Arch.expandList, Verif.Arch.C63_plain t (h t List.mem_cons_self), ih (fun u hu => h u (List.mem_cons_of_mem _ hu))]

theorem substitute_plain {w : WeightInfo} (h : plainWeight w = true) (n : Nat) (layer : Option Int) : substitute w n layer = .ok w := by
  unfold plainWeight at h
  simp only [Bool.and_eq_true, decide_eq_true_eq, List.all_eq_true] at h
  obtain ⟨⟨⟨⟨h1, h2⟩, h3⟩, _⟩, _⟩ := h
  obtain ⟨name, embed, optional, aliases, force, tied⟩ := w
  simp only at h1 h2 h3
  subst h2
  unfold substitute
  simp only [Verif.Arch.C63_plain name h1, Verif.Arch.expandOpt]
  cases tied with
  | none => rfl
  | some l =>
    simp only [Option.getD_some] at h3
    simp only [Verif.Arch.expandOpt, expandList_plain h3]
    rfl

/-- The weight of layer `i`. -/
def atLayer (w : WeightInfo) (i : Nat) : WeightInfo := { w with name := cs!"model.layers." ++ Nat.toDigits 10 i ++ w.name.drop 27 }

theorem substitute_layer {w : WeightInfo} (h : layerWeight w = true) (n i : Nat) : substitute w n (some (i : Int)) = .ok (atLayer w i) := by
  unfold layerWeight at h
  simp only [Bool.and_eq_true, decide_eq_true_eq] at h
  obtain ⟨⟨⟨⟨h1, h2⟩, h3⟩, h4⟩, _⟩ := h
  obtain ⟨rest, hrest⟩ := List.isPrefixOf_iff_prefix.1 h1
  have hdrop : w.name.drop 27 = rest := by
    rw [← hrest]
    exact List.drop_left' (by decide)
  have he := Verif.Arch.C63_replaces cs!"model.layers." rest (by decide) (hdrop ▸ h2) n i
  rw [show cs!"model.layers." ++ "${layer_index}".toList ++ rest = w.name from by rw [← hrest]; rfl, ← hdrop] at he
  exact Verif.Infer.substitute_named w h3 h4 n (some (i : Int)) _ he

/-- What a definition of this kind lists. -/
theorem listed_iff {m : Module} (hpre : m.weightPrefix = none) (hover : m.overrideNumLayers = none) (hp : (m.pre ++ m.post).all plainWeight = true)
    (hl : m.layers.all layerWeight = true) {n : Nat} {ws : List WeightInfo} (h : Verif.Arch.allWeights [(m, n)] = .ok ws) (v : WeightInfo) :
    v ∈ ws ↔ v ∈ m.pre ++ m.post ∨ ∃ i, i < n ∧ ∃ w ∈ m.layers, v = atLayer w i := by
  rw [List.all_eq_true] at hp hl
  rw [Verif.Arch.C63_model _ _ h v]
  have hus : ∀ us, m.allWeights n = .ok us → ∀ u, u ∈ us ↔ u ∈ m.pre ++ m.post ∨ ∃ i, i < n ∧ ∃ w ∈ m.layers, u = atLayer w i := by
    intro us hus u
    have hm := (Verif.Arch.C63_module m n us hus).1 u
    rw [hover] at hm
    simp only at hm
    rw [hm]
    refine or_congr ?_ ?_
    · constructor
      · rintro ⟨w, hw, hs⟩
        rw [substitute_plain (hp w hw)] at hs
        cases hs
        exact hw
      · intro hu
        exact ⟨u, hu, substitute_plain (hp u hu) n none⟩
    · constructor
      · rintro ⟨i, hi, w, hw, hs⟩
        rw [substitute_layer (hl w hw)] at hs
        cases hs
        exact ⟨i, hi, w, hw, rfl⟩
      · rintro ⟨i, hi, w, hw, rfl⟩
        exact ⟨i, hi, w, hw, substitute_layer (hl w hw) n i⟩
  constructor
  · rintro ⟨p, hpm, us, h1, u, hu, rfl⟩
    rw [List.mem_singleton] at hpm
    subst hpm
    simp only at h1
    rw [hpre, prefixWeight_none]
    exact (hus us h1 u).1 hu
  · intro hv
    cases hx : m.allWeights n with
    | error e => simp only [Verif.Arch.allWeights, hx] at h; cases h
    | ok us =>
      exact ⟨(m, n), List.mem_singleton.2 rfl, us, hx, v, (hus us hx v).2 hv, by rw [hpre, prefixWeight_none]⟩

theorem mlp_layer (i : Nat) (rest : Str) : cs!".mlp." <:+: cs!"model.layers." ++ Nat.toDigits 10 i ++ rest ↔ cs!".mlp." <:+: rest := by
  constructor
  · rintro ⟨pre, post, h⟩
    obtain ⟨pre', _, hb⟩ := split_at_digits (a := cs!"model.layers.") (d := Nat.toDigits 10 i) (b := rest)
      (by
        have := Nat.length_toDigits_pos (b := 10) (n := i)
        intro he
        rw [he] at this
        simp at this)
      (fun c hc => Nat.isDigit_of_mem_toDigits (by decide) (by decide) hc) (by decide) h.symm
    exact ⟨pre', post, hb.symm⟩
  · rintro ⟨pre, post, h⟩
    exact ⟨cs!"model.layers." ++ Nat.toDigits 10 i ++ pre, post, by rw [← h]; simp [List.append_assoc]⟩

/-- The names of the packed tensors and routers. -/
def mixtureNames : List Str := [cs!".mlp.experts.gate_up_proj", cs!".mlp.experts.down_proj", cs!".mlp.gate.weight"]

/-- The heart of the matter: names saved and names listed. -/
theorem again {m m' : Module} (hok : pairOk m m' = true) {n : Nat} {ws ws' : List WeightInfo} (h : Verif.Arch.allWeights [(m, n)] = .ok ws)
    (h' : Verif.Arch.allWeights [(m', n)] = .ok ws') {stored : Str → Prop} {saved : Str → Prop}
    (hreq : ∀ w ∈ ws, w.optional = false → ¬ cs!".mlp." <:+: w.name → stored w.name)
    (hsaved : ∀ s, saved s ↔ (∃ w ∈ ws, ¬ cs!".mlp." <:+: w.name ∧ s = w.name ∧ stored w.name) ∨
      ∃ i, i < n ∧ ∃ r ∈ mixtureNames, s = cs!"model.layers." ++ Nat.toDigits 10 i ++ r) :
    (∀ s, saved s → ∃ w ∈ ws', w.name = s) ∧ (∀ w ∈ ws', w.optional = false → saved w.name) ∧
    ∀ w ∈ ws', w.optional = true → (saved w.name ↔ stored w.name) := by
  unfold pairOk at hok
  simp only [Bool.and_eq_true, decide_eq_true_eq] at hok
  obtain ⟨⟨⟨⟨⟨⟨⟨⟨⟨⟨h1, h2⟩, h3⟩, h4⟩, h5⟩, h6⟩, h7⟩, h8⟩, h9⟩, h10⟩, h11⟩ := hok
  have hw := listed_iff h1 h3 h5 h7 h
  have hw' := listed_iff h2 h4 (by rw [h6]; exact h5) h8 h'
  rw [h6] at hw'
  rw [List.all_eq_true] at h5 h8 h9 h10 h11
  have hnomlp : ∀ w ∈ m.pre ++ m.post, ¬ cs!".mlp." <:+: w.name := by
    intro w hw
    have := h5 w hw
    unfold plainWeight at this
    simp only [Bool.and_eq_true, Bool.not_eq_true'] at this
    rw [← hasMlp_iff, this.2]
    simp
  refine ⟨?_, ?_, ?_⟩
  · intro s hs
    rcases (hsaved s).1 hs with ⟨w, hwm, hm, rfl, _⟩ | ⟨i, hi, r, hr, rfl⟩
    · rcases (hw w).1 hwm with hpp | ⟨i, hi, u, hu, rfl⟩
      · exact ⟨w, (hw' w).2 (Or.inl hpp), rfl⟩
      · have := h9 u hu
        simp only [Bool.or_eq_true, decide_eq_true_eq] at this
        rcases this with hin | hmlp
        · exact ⟨_, (hw' _).2 (Or.inr ⟨i, hi, u, hin, rfl⟩), rfl⟩
        · exact absurd ((mlp_layer i _).2 ((hasMlp_iff _).1 hmlp)) hm
    · have := h11 r hr
      rw [List.any_eq_true] at this
      obtain ⟨u, hu, hd⟩ := this
      simp only [decide_eq_true_eq] at hd
      exact ⟨_, (hw' _).2 (Or.inr ⟨i, hi, u, hu, rfl⟩), by simp only [atLayer, hd]⟩
  · intro w hwm ho
    rcases (hw' w).1 hwm with hpp | ⟨i, hi, u, hu, rfl⟩
    · have hin := (hw w).2 (Or.inl hpp)
      exact (hsaved _).2 (Or.inl ⟨w, hin, hnomlp w hpp, rfl, hreq w hin ho (hnomlp w hpp)⟩)
    · have := h10 u hu
      simp only [Bool.or_eq_true, Bool.and_eq_true, Bool.not_eq_true', decide_eq_true_eq] at this
      rcases this with ⟨hin, hm⟩ | hr
      · have hin' := (hw _).2 (Or.inr ⟨i, hi, u, hin, rfl⟩)
        have hm' : ¬ cs!".mlp." <:+: (atLayer u i).name := by
          unfold atLayer
          simp only
          rw [mlp_layer, ← hasMlp_iff, hm]
          simp
        exact (hsaved _).2 (Or.inl ⟨_, hin', hm', rfl, hreq _ hin' ho hm'⟩)
      · exact (hsaved _).2 (Or.inr ⟨i, hi, _, hr, rfl⟩)
  · intro w hwm ho
    rcases (hw' w).1 hwm with hpp | ⟨i, hi, u, hu, rfl⟩
    · have hin := (hw w).2 (Or.inl hpp)
      constructor
      · intro hs
        rcases (hsaved _).1 hs with ⟨v, hv, _, he, hst⟩ | ⟨i, hi, r, hr, he⟩
        · rw [he]; exact hst
        · refine absurd ?_ (hnomlp w hpp)
          rw [he, mlp_layer]
          simp only [mixtureNames, List.mem_cons, List.not_mem_nil, or_false] at hr
          rcases hr with rfl | rfl | rfl
          · exact ⟨[], cs!"experts.gate_up_proj", rfl⟩
          · exact ⟨[], cs!"experts.down_proj", rfl⟩
          · exact ⟨[], cs!"gate.weight", rfl⟩
      · intro hst
        exact (hsaved _).2 (Or.inl ⟨w, hin, hnomlp w hpp, rfl, hst⟩)
    · have := h8 u hu
      unfold layerWeight at this
      simp only [Bool.and_eq_true, decide_eq_true_eq] at this
      exact absurd ho (by simp [atLayer, this.2])

theorem firstStored_single (l : Loader V) (name : Str) (t : V) : FirstStored l [name] t ↔ l name = some t := by
  constructor
  · rintro ⟨pre, k, post, he, h, _⟩
    cases pre with
    | nil => cases he; exact h
    | cons a pre =>
      have := congrArg List.length he
      simp at this
  · intro h
    exact ⟨[], name, [], rfl, h, by simp⟩

theorem listed_simple {m m' : Module} (hok : pairOk m m' = true) {n : Nat} {ws : List WeightInfo} (h : Verif.Arch.allWeights [(m, n)] = .ok ws)
    {w : WeightInfo} (hw : w ∈ ws) : w.aliases = none ∧ namesOf w = [w.name] := by
  unfold pairOk at hok
  simp only [Bool.and_eq_true, decide_eq_true_eq] at hok
  obtain ⟨⟨⟨⟨⟨⟨⟨⟨⟨⟨h1, h2⟩, h3⟩, h4⟩, h5⟩, h6⟩, h7⟩, h8⟩, h9⟩, h10⟩, h11⟩ := hok
  have hl := (listed_iff h1 h3 h5 h7 h w).1 hw
  rw [List.all_eq_true] at h5 h7
  rcases hl with hp | ⟨i, hi, u, hu, rfl⟩
  · have := h5 w hp
    unfold plainWeight at this
    simp only [Bool.and_eq_true, Bool.or_eq_true, decide_eq_true_eq] at this
    obtain ⟨⟨⟨⟨_, ha⟩, _⟩, ho⟩, _⟩ := this
    refine ⟨ha, ?_⟩
    unfold namesOf
    rw [ha]
    rcases ho with ho | ho
    · simp [ho]
    · rw [ho]; simp
  · have := h7 u hu
    unfold layerWeight at this
    simp only [Bool.and_eq_true, decide_eq_true_eq] at this
    obtain ⟨⟨⟨_, ha⟩, ht⟩, _⟩ := this
    refine ⟨ha, ?_⟩
    unfold namesOf atLayer
    simp [ha, ht]

/-- Every layer is packed. -/
theorem packed_layers [Inhabited V] {ops : Ops V K} {disk : M → Loader V} {c : Config M K} {k : Packed V} {n : Nat} {ys : List (Str × V)}
    (h : each (packLayer ops disk c k) (List.range n) = .ok ys) (s : Str) :
    (∃ t, (s, t) ∈ ys) ↔ ∃ i, i < n ∧ ∃ r ∈ [cs!".mlp.experts.gate_up_proj", cs!".mlp.experts.down_proj"], s = cs!"model.layers." ++ Nat.toDigits 10 i ++ r := by
  obtain ⟨rfl, hall⟩ := each_ok h
  have hlayer : ∀ i, i < n → ∃ a b, val (packLayer ops disk c k i) = [(layerName i cs!"experts.gate_up_proj", a), (layerName i cs!"experts.down_proj", b)] := by
    intro i hi
    have := hall i (List.mem_range.2 hi)
    generalize val (packLayer ops disk c k i) = x at this
    unfold packLayer at this
    split at this
    · cases this
    · split at this
      · cases this
      · rename_i a ha
        unfold convertSave at ha this
        split at ha
        · cases ha
        · cases ha
          split at this
          · cases this
          · rename_i b hb
            cases this
            exact ⟨_, _, rfl⟩
  have hname : ∀ i what, layerName i what = cs!"model.layers." ++ Nat.toDigits 10 i ++ (cs!".mlp." ++ what) := by
    intro i what
    unfold layerName
    simp [List.append_assoc]
  constructor
  · rintro ⟨t, ht⟩
    rw [List.mem_flatMap] at ht
    obtain ⟨i, hi, hx⟩ := ht
    rw [List.mem_range] at hi
    obtain ⟨a, b, hab⟩ := hlayer i hi
    rw [hab] at hx
    simp only [List.mem_cons, List.not_mem_nil, or_false, Prod.mk.injEq] at hx
    rcases hx with ⟨rfl, _⟩ | ⟨rfl, _⟩
    · exact ⟨i, hi, cs!".mlp.experts.gate_up_proj", by simp, hname i _⟩
    · exact ⟨i, hi, cs!".mlp.experts.down_proj", by simp, hname i _⟩
  · rintro ⟨i, hi, r, hr, rfl⟩
    obtain ⟨a, b, hab⟩ := hlayer i hi
    simp only [List.mem_cons, List.not_mem_nil, or_false] at hr
    rcases hr with rfl | rfl
    · exact ⟨a, List.mem_flatMap.2 ⟨i, List.mem_range.2 hi, by rw [hab, hname]; exact List.mem_cons_self⟩⟩
    · exact ⟨b, List.mem_flatMap.2 ⟨i, List.mem_range.2 hi, by rw [hab, hname i cs!"experts.down_proj"]; exact List.mem_cons_of_mem _ List.mem_cons_self⟩⟩

theorem routers_named {ops : Ops V K} {routers : List V} (s : Str) :
    (∃ t, (s, t) ∈ saveRouters ops cs!"gate.weight" routers) ↔
      ∃ i, i < routers.length ∧ s = cs!"model.layers." ++ Nat.toDigits 10 i ++ cs!".mlp.gate.weight" := by
  have hname : ∀ i, layerName i cs!"gate.weight" = cs!"model.layers." ++ Nat.toDigits 10 i ++ cs!".mlp.gate.weight" := by
    intro i
    unfold layerName
    rw [List.append_assoc]
    rfl
  unfold saveRouters
  constructor
  · rintro ⟨t, ht⟩
    obtain ⟨⟨r, i⟩, hp, he⟩ := List.mem_map.1 ht
    cases he
    exact ⟨i, (List.getElem?_eq_some_iff.1 (List.mem_zipIdx_iff_getElem?.1 hp)).1, hname i⟩
  · rintro ⟨i, hi, rfl⟩
    exact ⟨_, List.mem_map.2 ⟨(routers[i], i), List.mem_zipIdx_iff_getElem?.2 (List.getElem?_eq_getElem hi), by rw [← hname]⟩⟩

/-- What can be said about a checkpoint and a definition: all saved tensors are listed; all required ones are saved; optional ones are saved if
`stored`. -/
def Complete (saved : List (Str × V)) (listed : List WeightInfo) (stored : Str → Prop) : Prop :=
  (∀ x ∈ saved, ∃ w ∈ listed, w.name = x.1) ∧ (∀ w ∈ listed, w.optional = false → ∃ t, (w.name, t) ∈ saved) ∧
    ∀ w ∈ listed, w.optional = true → ((∃ t, (w.name, t) ∈ saved) ↔ stored w.name)

/-- From the three parts of what is saved. -/
theorem complete_of {m m' : Module} (hok : pairOk m m' = true) {n : Nat} {ws ws' : List WeightInfo} (h : Verif.Arch.allWeights [(m, n)] = .ok ws)
    (h' : Verif.Arch.allWeights [(m', n)] = .ok ws') {ops : Ops V K} {l : Loader V} {routers : List V} (hr : routers.length = n) {xs ys : List (Str × V)}
    (hxs : ∀ x, x ∈ xs ↔ ∃ w ∈ ws, ¬ cs!".mlp." <:+: w.name ∧ x.1 = w.name ∧ ∃ t, l w.name = some t ∧ x.2 = ops.cast t)
    (hreq : ∀ w ∈ ws, w.optional = false → ¬ cs!".mlp." <:+: w.name → ∃ t, l w.name = some t)
    (hys : ∀ s, (∃ t, (s, t) ∈ ys) ↔
      ∃ i, i < n ∧ ∃ r ∈ [cs!".mlp.experts.gate_up_proj", cs!".mlp.experts.down_proj"], s = cs!"model.layers." ++ Nat.toDigits 10 i ++ r) :
    Complete (xs ++ ys ++ saveRouters ops cs!"gate.weight" routers) ws' (fun s => ∃ t, l s = some t) := by
  have key := again hok h h' (stored := fun s => ∃ t, l s = some t)
    (saved := fun s => ∃ t, (s, t) ∈ xs ++ ys ++ saveRouters ops cs!"gate.weight" routers) hreq ?_
  · exact ⟨fun x hx => key.1 x.1 ⟨x.2, hx⟩, key.2.1, key.2.2⟩
  · intro s
    simp only [List.mem_append, exists_or]
    rw [hys, routers_named, hr, or_assoc]
    refine or_congr ?_ ?_
    · constructor
      · rintro ⟨t, ht⟩
        obtain ⟨w, hw, hm, he, u, hu, _⟩ := (hxs _).1 ht
        exact ⟨w, hw, hm, he, u, hu⟩
      · rintro ⟨w, hw, hm, rfl, t, ht⟩
        exact ⟨ops.cast t, (hxs _).2 ⟨w, hw, hm, rfl, t, ht, rfl⟩⟩
    · constructor
      · rintro (⟨i, hi, r, hr', rfl⟩ | ⟨i, hi, rfl⟩)
        · refine ⟨i, hi, r, ?_, rfl⟩
          simp only [List.mem_cons, List.not_mem_nil, or_false] at hr'
          rcases hr' with rfl | rfl <;> simp [mixtureNames]
        · exact ⟨i, hi, _, by simp [mixtureNames], rfl⟩
      · rintro ⟨i, hi, r, hr', rfl⟩
        simp only [mixtureNames, List.mem_cons, List.not_mem_nil, or_false] at hr'
        rcases hr' with rfl | rfl | rfl
        · exact Or.inl ⟨i, hi, _, by simp, rfl⟩
        · exact Or.inl ⟨i, hi, _, by simp, rfl⟩
        · exact Or.inr ⟨i, hi, rfl⟩

theorem mistral_pair : ∃ m m', Verif.Arch.Data.mistral = [m] ∧ Verif.Arch.Data.mixtral = [m'] ∧ pairOk m m' = true :=
  ⟨_, _, rfl, rfl, by decide +kernel⟩

theorem qwen3_pair : ∃ m m', Verif.Arch.Data.qwen3 = [m] ∧ Verif.Arch.Data.qwen3_moe = [m'] ∧ pairOk m m' = true :=
  ⟨_, _, rfl, rfl, by decide +kernel⟩

/-- C124: a mixture in the Mixtral layout, made with the weights of the shipped Mistral definition, has exactly the tensors which the shipped
Mixtral definition lists for the same number of layers. -/
theorem C124_mixtral_again [Inhabited V] {ops : Ops V K} {disk : M → Loader V} {c : Config M K} {transforms : List (Verif.Convert.Transform V)} {n : Nat}
    {routers : List V} {ws ws' : List WeightInfo} {saved : List (Str × V)} (h : Verif.Arch.allWeights (Verif.Arch.Data.mistral.zip [n]) = .ok ws)
    (h' : Verif.Arch.allWeights (Verif.Arch.Data.mixtral.zip [n]) = .ok ws') (hrun : writeMixtral ops disk c ws transforms n routers = .ok saved) :
    Complete saved ws' (fun s => ∃ t, disk c.base s = some t) := by
  obtain ⟨m, m', e, e', hok⟩ := mistral_pair
  rw [e] at h
  rw [e'] at h'
  have h1 : Verif.Arch.allWeights [(m, n)] = .ok ws := h
  have h2 : Verif.Arch.allWeights [(m', n)] = .ok ws' := h'
  unfold writeMixtral at hrun
  split at hrun
  · cases hrun
  · rename_i hlen
    rw [ne_eq, not_not] at hlen
    cases he : each (fun w => if hasMlp w.name then .ok [] else asList (copyOut ops w (loaderFor disk c c.base) (none : Option (Expert M K)) false w.name)) ws with
    | error e => rw [he] at hrun; cases hrun
    | ok xs =>
      rw [he] at hrun
      simp only at hrun
      cases hl : each (packLayer ops disk c { params := mixtralParams, transforms := transforms }) (List.range n) with
      | error e => rw [hl] at hrun; cases hrun
      | ok ys =>
        rw [hl] at hrun
        cases hrun
        obtain ⟨rfl, hall⟩ := each_ok he
        have hb : ∀ w ∈ ws, hasMlp w.name = false → asList (copyOut ops w (some (disk c.base)) (none : Option (Expert M K)) false w.name) =
            .ok (val (if hasMlp w.name then .ok [] else asList (copyOut ops w (loaderFor disk c c.base) (none : Option (Expert M K)) false w.name))) := by
          intro w hw hm
          have := hall w hw
          simp only [hm, Bool.false_eq_true, if_false] at this ⊢
          rw [loaderFor_base] at this ⊢
          exact this
        refine complete_of hok h1 h2 hlen ?_ ?_ (packed_layers hl)
        · intro x
          rw [List.mem_flatMap]
          constructor
          · rintro ⟨w, hw, hx⟩
            cases hm : hasMlp w.name with
            | true => simp [hm, val] at hx
            | false =>
              obtain ⟨t, ht, rfl⟩ := ((copyOut_base (hb w hw hm)).1 x).1 hx
              rw [(listed_simple hok h1 hw).2, firstStored_single] at ht
              exact ⟨w, hw, by rw [← hasMlp_iff, hm]; simp, rfl, t, ht, rfl⟩
          · rintro ⟨w, hw, hm, hx1, t, ht, hx2⟩
            rw [← hasMlp_iff, Bool.not_eq_true] at hm
            refine ⟨w, hw, ((copyOut_base (hb w hw hm)).1 x).2 ⟨t, ?_, Prod.ext hx1 hx2⟩⟩
            rw [(listed_simple hok h1 hw).2, firstStored_single]
            exact ht
        · intro w hw ho hm
          rw [← hasMlp_iff, Bool.not_eq_true] at hm
          obtain ⟨t, ht⟩ := (copyOut_base (hb w hw hm)).2 ho
          rw [(listed_simple hok h1 hw).2, firstStored_single] at ht
          exact ⟨t, ht⟩

/-- C124: the same for the Qwen3 layout. -/
theorem C124_qwen3_again [Inhabited V] {ops : Ops V K} {disk : M → Loader V} {c : Config M K} {transforms : List (Verif.Convert.Transform V)} {n : Nat}
    {routers : List V} (hlen : routers.length = n) {ws ws' : List WeightInfo} {saved : List (Str × V)}
    (h : Verif.Arch.allWeights (Verif.Arch.Data.qwen3.zip [n]) = .ok ws)
    (h' : Verif.Arch.allWeights (Verif.Arch.Data.qwen3_moe.zip [n]) = .ok ws') (hrun : writeQwen3 ops disk c ws transforms n routers = .ok saved) :
    Complete saved ws' (fun s => ∃ t, disk c.base s = some t) := by
  obtain ⟨m, m', e, e', hok⟩ := qwen3_pair
  rw [e] at h
  rw [e'] at h'
  have h1 : Verif.Arch.allWeights [(m, n)] = .ok ws := h
  have h2 : Verif.Arch.allWeights [(m', n)] = .ok ws' := h'
  unfold writeQwen3 at hrun
  cases he : each (fun w => if hasMlp w.name then .ok [] else qwen3Base ops (disk c.base) w) ws with
  | error e => rw [he] at hrun; cases hrun
  | ok xs =>
    rw [he] at hrun
    simp only at hrun
    cases hl : each (packLayer ops disk c { params := qwen3Params, transforms := transforms }) (List.range n) with
    | error e => rw [hl] at hrun; cases hrun
    | ok ys =>
      rw [hl] at hrun
      cases hrun
      obtain ⟨rfl, hall⟩ := each_ok he
      have hb : ∀ w ∈ ws, hasMlp w.name = false →
          (∀ x, x ∈ val (if hasMlp w.name then .ok [] else qwen3Base ops (disk c.base) w) ↔
            x.1 = w.name ∧ ∃ t, disk c.base w.name = some t ∧ x.2 = ops.cast t) ∧ (w.optional = false → ∃ t, disk c.base w.name = some t) := by
        intro w hw hm
        have hok1 := hall w hw
        simp only [hm, Bool.false_eq_true, if_false] at hok1 ⊢
        unfold qwen3Base get at hok1 ⊢
        rw [(listed_simple hok h1 hw).1] at hok1 ⊢
        simp only [Option.getD_none, List.findSome?_singleton] at hok1 ⊢
        cases hd : disk c.base w.name with
        | some t =>
          refine ⟨?_, fun _ => ⟨t, rfl⟩⟩
          intro x
          simp only [val, List.mem_singleton, Option.some.injEq, exists_eq_left']
          exact ⟨fun hx => by rw [hx]; exact ⟨rfl, rfl⟩, fun hx => Prod.ext hx.1 hx.2⟩
        | none =>
          rw [hd] at hok1
          simp only at hok1
          cases ho : w.optional with
          | true => exact ⟨by simp [val], by simp⟩
          | false => rw [ho] at hok1; cases hok1
      refine complete_of hok h1 h2 hlen ?_ ?_ (packed_layers hl)
      · intro x
        rw [List.mem_flatMap]
        constructor
        · rintro ⟨w, hw, hx⟩
          cases hm : hasMlp w.name with
          | true => simp [hm, val] at hx
          | false => exact ⟨w, hw, by rw [← hasMlp_iff, hm]; simp, ((hb w hw hm).1 x).1 hx⟩
        · rintro ⟨w, hw, hm, hx⟩
          rw [← hasMlp_iff, Bool.not_eq_true] at hm
          exact ⟨w, hw, ((hb w hw hm).1 x).2 hx⟩
      · intro w hw ho hm
        rw [← hasMlp_iff, Bool.not_eq_true] at hm
        exact (hb w hw hm).2 ho

/-! ## The run -/

/-- The names of data types: with or without `torch.`. -/
def Named (s : Str) (d : DType) : Prop :=
  ∃ n, (n, d) ∈ [(cs!"bfloat16", DType.bfloat16), (cs!"float16", .float16), (cs!"float32", .float32), (cs!"int64", .int64)] ∧ (s = n ∨ s = cs!"torch." ++ n)

theorem namedDtype_iff {s : Str} {d : DType} : namedDtype s = .ok d → Named s d := by
  unfold namedDtype Verif.LoadTask.dtypeFromName
  simp only [String.toList_ofList]
  have hdrop : s = Verif.LoadTask.dropTorch s ∨ s = cs!"torch." ++ Verif.LoadTask.dropTorch s := by
    unfold Verif.LoadTask.dropTorch
    split
    · rename_i hp
      obtain ⟨r, rfl⟩ := hp
      right
      rw [List.drop_left' (by decide)]
      rfl
    · exact Or.inl rfl
  generalize Verif.LoadTask.dropTorch s = n at hdrop
  intro h
  split at h
  · rename_i d' hd
    cases h
    split at hd
    · cases hd
      exact ⟨n, by rename_i e; rw [e]; exact List.mem_cons_self, hdrop⟩
    · split at hd
      · cases hd
        exact ⟨n, by rename_i e; rw [e]; exact List.mem_cons_of_mem _ List.mem_cons_self, hdrop⟩
      · split at hd
        · cases hd
          exact ⟨n, by rename_i e; rw [e]; exact List.mem_cons_of_mem _ (List.mem_cons_of_mem _ List.mem_cons_self), hdrop⟩
        · split at hd
          · cases hd
            exact ⟨n, by rename_i e; rw [e]; exact List.mem_cons_of_mem _ (List.mem_cons_of_mem _ (List.mem_cons_of_mem _ List.mem_cons_self)), hdrop⟩
          · cases hd
  · cases h

/-- The output type: the one asked for; without one, the base model's; or none. -/
inductive OutType (asked : Option Str) (base : Cfg) : Option DType → Prop
  | asked (s : Str) (d : DType) (hs : asked = some s) (hne : s ≠ []) (hn : Named s d) : OutType asked base (some d)
  | base (d : DType) (ha : asked.getD [] = []) (hb : base cs!"torch_dtype" = some (.dtype d)) : OutType asked base (some d)
  | baseName (s : Str) (d : DType) (ha : asked.getD [] = []) (hb : base cs!"torch_dtype" = some (.text s)) (hne : s ≠ []) (hn : Named s d) : OutType asked base (some d)
  | none (ha : asked.getD [] = []) (hb : ∀ d, base cs!"torch_dtype" ≠ some (.dtype d)) (hs : ∀ s, base cs!"torch_dtype" = some (.text s) → s = []) :
      OutType asked base none

theorem selectDtype_ok {asked : Option Str} {base : Cfg} {d : Option DType} (h : selectDtype asked base = .ok d) : OutType asked base d := by
  have hbase : ∀ d, asked.getD [] = [] → (match base cs!"torch_dtype" with
      | some (.dtype d) => .ok (some d)
      | some (.text s) => if s.isEmpty then .ok none else (namedDtype s).map some
      | _ => .ok none : Except BuildErr (Option DType)) = .ok d → OutType asked base d := by
    intro d ha hd
    split at hd
    · rename_i d' hb
      cases hd
      exact .base d' ha hb
    · rename_i s hb
      split at hd
      · rename_i he
        cases hd
        refine .none ha (by rw [hb]; simp) ?_
        intro s' hs'
        rw [hb] at hs'
        cases hs'
        exact List.isEmpty_iff.1 he
      · rename_i he
        cases hn : namedDtype s with
        | error e => rw [hn] at hd; cases hd
        | ok d' =>
          rw [hn] at hd
          cases hd
          exact .baseName s d' ha hb (fun h => he (List.isEmpty_iff.2 h)) (namedDtype_iff hn)
    · rename_i h1 h2
      cases hd
      exact .none ha (fun d hd => h1 d hd) (fun s hs => absurd hs (h2 s))
  unfold selectDtype at h
  cases asked with
  | none => exact hbase d rfl h
  | some s =>
    simp only at h
    split at h
    · rename_i he
      exact hbase d (List.isEmpty_iff.1 he) h
    · rename_i he
      cases hn : namedDtype s with
      | error e => rw [hn] at h; cases h
      | ok d' =>
        rw [hn] at h
        cases h
        exact .asked s d' rfl (fun h => he (List.isEmpty_iff.2 h)) (namedDtype_iff hn)

/-- What the tensors of a layout are, for the output type and the routers' rows; `pack2` and `pack1` are how the library packs experts. -/
def Saves (env : Env M K V W) (c : Config M K) (pack2 pack1 : Nat → List (List V) → V) (d : Option DType) (rows : List (List W × List W)) (ts : List (Str × V)) :
    OutArch → Prop
  | .mixtral => ∀ x, x ∈ ts ↔ BasePart (env.ops d) env.disk c (env.weights .mixtral c.base) x ∨
      PackedPart (env.ops d) env.disk c cs!".w1.weight" cs!".w3.weight" cs!".w2.weight" pack2 pack1 (env.layers c.base) x ∨
      RouterPart (env.ops d) cs!"gate.weight" (rows.map (fun r => env.stack r.1)) x
  | .deepseek => ∀ x, x ∈ ts ↔ ExpertPart (env.ops d) env.disk c (env.weights .deepseek c.base) cs!"shared_experts" x ∨
      BasePart (env.ops d) env.disk c (env.weights .deepseek c.base) x ∨ RouterPart (env.ops d) cs!"gate.weight" (rows.map (fun r => env.stack r.1)) x
  | .qwen => ∀ x, x ∈ ts ↔ ExpertPart (env.ops d) env.disk c (env.weights .qwen c.base) cs!"shared_expert" x ∨
      QwenBasePart (env.ops d) env.disk c (env.weights .qwen c.base) x ∨
      RouterPart (env.ops d) cs!"gate.weight" (rows.map (fun r => env.stack r.1)) x ∨
      RouterPart (env.ops d) cs!"shared_expert_gate.weight" (rows.map (fun r => env.stack r.2)) x
  | .qwen3 => ∀ x, x ∈ ts ↔ Qwen3BasePart (env.ops d) env.disk c (env.weights .qwen3 c.base) x ∨
      PackedPart (env.ops d) env.disk c cs!".gate_proj.weight" cs!".up_proj.weight" cs!".down_proj.weight" pack2 pack1 (env.layers c.base) x ∨
      RouterPart (env.ops d) cs!"gate.weight" (rows.map (fun r => env.stack r.1)) x

/-- What is needed of the library and of the definitions. -/
structure Sound (env : Env M K V W) (pack2 pack1 : OutArch → Nat → List (List V) → V) : Prop where
  mixtral2 : ∀ layer, PacksExperts env.mixtralTransforms layer [cs!".w1.weight", cs!".w3.weight"] cs!"experts.gate_up_proj" (pack2 .mixtral layer)
  mixtral1 : ∀ layer, PacksExperts env.mixtralTransforms layer [cs!".w2.weight"] cs!"experts.down_proj" (pack1 .mixtral layer)
  qwen32 : ∀ layer, PacksExperts env.qwen3Transforms layer [cs!".gate_proj.weight", cs!".up_proj.weight"] cs!"experts.gate_up_proj" (pack2 .qwen3 layer)
  qwen31 : ∀ layer, PacksExperts env.qwen3Transforms layer [cs!".down_proj.weight"] cs!"experts.down_proj" (pack1 .qwen3 layer)
  single : ∀ a m, ∀ w ∈ env.weights a m, Single w.name

/-- What happens to the tokenizer: it pads on the left, with its first token or else with its last. -/
def padded (t : Tok) : Tok := { paddingSide := cs!"left", bos := t.bos, eos := t.eos, pad := t.bos.orElse (fun _ => t.eos), rest := t.rest }

theorem prepareTok_eq (t : Tok) : prepareTok t = padded t := by
  obtain ⟨side, bos, eos, pad, rest⟩ := t
  cases bos <;> rfl

/-- The steps of a finished run. -/
theorem main_ok {env : Env M K V W} {source : Str} {c : Config M K} {flags : Flags} {dir dir' : Dir V} (h : main env source c flags dir = (dir', none)) :
    isBad c flags.allowAllSame = false ∧ ∃ a rows d cfg ts, selectArch c env.typeOf = some a ∧ routersOf env.gates c (env.layers c.base) = .ok rows ∧
      selectDtype flags.dtype (env.cfg c.base) = .ok d ∧ generate env.lib (env.cfg c.base) c a = .ok cfg ∧ writeTensors env c d rows a = .ok ts ∧
      (a = .deepseek → dir.there = true) ∧ (a = .mixtral → rows.length = env.layers c.base) ∧
      dir' = { there := true, config := some (withDtype a d cfg), tensors := some ts,
               tokenizer := if flags.copyTokenizer then some (padded (env.tokenizer c.base)) else dir.tokenizer,
               recipe := if flags.writeModelCard then some source else dir.recipe } := by
  unfold main at h
  split at h
  · cases h
  · rename_i dir1 hb
    unfold build at hb
    split at hb
    · cases hb
    · rename_i hbad
      split at hb
      · cases hb
      · rename_i a ha
        split at hb
        · cases hb
        · rename_i rows hrows
          split at hb
          · cases hb
          · rename_i dir2 hw
            unfold writeModel at hw
            split at hw
            · cases hw
            · rename_i hmix
              split at hw
              · cases hw
              · rename_i d hd
                split at hw
                · cases hw
                · rename_i cfg hcfg
                  split at hw
                  · cases hw
                  · rename_i hdeep
                    simp only at hw
                    split at hw
                    · cases hw
                    · rename_i ts hts
                      refine ⟨by simpa using hbad, a, rows, d, cfg, ts, ha, hrows, hd, hcfg, hts, ?_, ?_, ?_⟩
                      · intro hdd
                        by_contra hno
                        exact hdeep ⟨hdd, by simpa using hno⟩
                      · intro hmm
                        by_contra hno
                        exact hmix ⟨hmm, hno⟩
                      · cases hw
                        cases hb
                        cases h
                        rw [prepareTok_eq]
                        split <;> split <;> rfl

/-- C124: a run that finishes leaves a complete model.  The configuration was acceptable; `config.json` names the chosen layout, counts
exactly the experts, has the number of experts per token asked for, the output type, and the base model's other entries; the tensors are those
of the layout in that type, with routers that have one row per expert; the tokenizer and the input are there if wanted. -/
theorem C124_finished [Inhabited V] {env : Env M K V W} {pack2 pack1 : OutArch → Nat → List (List V) → V} (hs : Sound env pack2 pack1) {source : Str}
    {c : Config M K} {flags : Flags} {dir dir' : Dir V} (hprobe : ∀ p, (env.gates.probe c.gateMode p).length = env.layers c.base)
    (h : main env source c flags dir = (dir', none)) :
    (1 ≤ c.expertsPerToken ∧ c.expertsPerToken ≤ c.experts.length) ∧ dir'.there = true ∧
    dir'.tokenizer = (if flags.copyTokenizer then some (padded (env.tokenizer c.base)) else dir.tokenizer) ∧
    dir'.recipe = (if flags.writeModelCard then some source else dir.recipe) ∧
    ∃ a d cfg rows ts, selectArch c env.typeOf = some a ∧ OutType flags.dtype (env.cfg c.base) d ∧
      dir'.config = some cfg ∧ cfg cs!"architectures" = some (.texts [className a]) ∧ cfg (countKey a) = some (.int c.experts.length) ∧
      cfg cs!"num_experts_per_tok" = some (.int c.expertsPerToken) ∧ (∀ d', d = some d' → cfg cs!"torch_dtype" = some (.dtype d')) ∧
      (∀ k v, k ∉ changedKeys a → k ≠ cs!"torch_dtype" → Keeps env.lib k → env.cfg c.base k = some v → cfg k = some v) ∧
      rows.length = env.layers c.base ∧
      (∀ layer r s, rows[layer]? = some (r, s) → r.length = c.experts.length ∧
        ∀ i e, c.experts[i]? = some e → ∃ w, r[i]? = some w ∧ RowOf env.gates c.gateMode layer i e w) ∧
      dir'.tensors = some ts ∧ Saves env c (pack2 a) (pack1 a) d rows ts a := by
  obtain ⟨hbad, a, rows, d, cfg, ts, ha, hrows, hd, hcfg, hts, _, _, rfl⟩ := main_ok h
  have hacc : 1 ≤ c.expertsPerToken ∧ c.expertsPerToken ≤ c.experts.length := by
    have hb := (C58_refused_partial c flags.allowAllSame).not.1 (by rw [hbad]; simp)
    rw [not_or, not_not] at hb
    exact hb.1
  have hne : c.experts ≠ [] := by
    intro he
    rw [he] at hacc
    simp only [List.length_nil] at hacc
    omega
  obtain ⟨hr1, hr2⟩ := C57_router_rows hprobe hrows
  obtain ⟨g1, g2, g3, g4⟩ := C124_config env.lib (env.cfg c.base) c a cfg hacc.1 hcfg
  have hwd : ∀ k, k ≠ cs!"torch_dtype" → withDtype a d cfg k = cfg k := by
    intro k hk
    unfold withDtype
    split
    · exact set_other _ _ hk
    · rfl
    · exact set_other _ _ hk
  refine ⟨hacc, rfl, rfl, rfl, a, d, withDtype a d cfg, rows, ts, ha, selectDtype_ok hd, rfl, ?_, ?_, ?_, ?_, ?_, hr1, ?_, rfl, ?_⟩
  · rw [hwd _ (by decide), g1]
  · rw [hwd _ (by cases a <;> decide), g2]
  · rw [hwd _ (by decide), g3]
  · rintro d' rfl
    cases a <;> exact set_same _ _ _
  · intro k v hk hne' hkeep hv
    rw [hwd k hne']
    exact g4 k v hk hkeep hv
  · intro layer r s hl
    obtain ⟨h1, h2, _⟩ := hr2 layer r s hl
    exact ⟨h1, h2⟩
  · cases a with
    | mixtral => exact (C57_mixtral hne hs.mixtral2 hs.mixtral1 hts).2.1
    | deepseek => exact (C57_deepseek (hs.single .deepseek c.base) hts).1
    | qwen =>
      have hq := (C57_qwen (hs.single .qwen c.base) hts).2.2.1
      have e : (rows.map (fun r => env.stack r.2)).take (rows.map (fun r => env.stack r.1)).length = rows.map (fun r => env.stack r.2) := by
        rw [List.length_map]
        exact List.take_of_length_le (by rw [List.length_map])
      rw [e] at hq
      exact hq
    | qwen3 => exact (C57_qwen3 hne hs.qwen32 hs.qwen31 hts).1

/-- C124: a run that does not finish adds neither tensors nor tokenizer nor recipe; and if the configuration is refused, or no layout fits, or the
routers cannot be made, nothing is touched at all. -/
theorem C124_failed {env : Env M K V W} {source : Str} {c : Config M K} {flags : Flags} {dir dir' : Dir V} {e : BuildErr}
    (h : main env source c flags dir = (dir', some e)) :
    dir'.tensors = dir.tensors ∧ dir'.tokenizer = dir.tokenizer ∧ dir'.recipe = dir.recipe ∧
    ((isBad c flags.allowAllSame = true ∨ selectArch c env.typeOf = none ∨ ∀ rows, routersOf env.gates c (env.layers c.base) ≠ .ok rows) → dir' = dir) := by
  unfold main at h
  split at h
  · rename_i dir1 e1 hb
    cases h
    unfold build at hb
    split at hb
    · cases hb
      exact ⟨rfl, rfl, rfl, fun _ => rfl⟩
    · rename_i hbad
      split at hb
      · cases hb
        exact ⟨rfl, rfl, rfl, fun _ => rfl⟩
      · rename_i a ha
        split at hb
        · cases hb
          exact ⟨rfl, rfl, rfl, fun _ => rfl⟩
        · rename_i rows hrows
          have hno : ¬ (isBad c flags.allowAllSame = true ∨ selectArch c env.typeOf = none ∨ ∀ rows, routersOf env.gates c (env.layers c.base) ≠ .ok rows) := by
            rintro (h | h | h)
            · exact hbad h
            · rw [ha] at h; cases h
            · exact h rows hrows
          split at hb
          · rename_i dir2 e2 hw
            cases hb
            unfold writeModel at hw
            split at hw
            · cases hw; exact ⟨rfl, rfl, rfl, fun h => absurd h hno⟩
            · split at hw
              · cases hw; exact ⟨rfl, rfl, rfl, fun h => absurd h hno⟩
              · split at hw
                · cases hw; exact ⟨rfl, rfl, rfl, fun h => absurd h hno⟩
                · split at hw
                  · cases hw; exact ⟨rfl, rfl, rfl, fun h => absurd h hno⟩
                  · simp only at hw
                    split at hw
                    · cases hw; exact ⟨rfl, rfl, rfl, fun h => absurd h hno⟩
                    · cases hw
          · cases hb
  · cases h

/-- The entries of the base model's configuration that a layout cannot do without. -/
def HasEntries (lib : Lib) (base : Cfg) : OutArch → Prop
  | .mixtral => lib.isMistral base = true ∨ ∃ v, base cs!"max_position_embeddings" = some v
  | .deepseek => ∃ v, base cs!"intermediate_size" = some v
  | .qwen | .qwen3 => Keeps lib cs!"intermediate_size" ∧ ∃ v, base cs!"intermediate_size" = some v

/-- C124: no layout refuses what it was chosen for: the configuration of the result is made whenever the entries it is computed from are there. -/
theorem C124_configured (lib : Lib) (base : Cfg) (c : Config M K) (typeOf : M → Str) (a : OutArch) (ha : selectArch c typeOf = some a)
    (hb : HasEntries lib base a) : ∃ cfg, generate lib base c a = .ok cfg := by
  have hf := ((C76_chosen c typeOf a).1 ha).1.2
  cases a with
  | mixtral =>
    have hs : c.sharedList.length = 0 := by rw [hf.1]; rfl
    unfold generate generateMixtral
    simp only [hs, ne_eq, not_true_eq_false, if_false]
    rcases hb with h | ⟨v, hv⟩
    · rw [h]; exact ⟨_, rfl⟩
    · rw [hv]
      by_cases h : lib.isMistral base = true
      · rw [if_pos h]; exact ⟨_, rfl⟩
      · rw [if_neg h]; exact ⟨_, rfl⟩
  | deepseek =>
    obtain ⟨v, hv⟩ := hb
    have hs : ¬ 1 < c.sharedList.length := Nat.not_lt.2 hf.1
    unfold generate generateDeepseek
    simp only [hs, if_false]
    repeat rw [set_other _ _ (by decide)]
    rw [hv]
    exact ⟨_, rfl⟩
  | qwen =>
    obtain ⟨hk, v, hv⟩ := hb
    unfold generate generateQwen
    simp only
    repeat rw [set_other _ _ (by decide)]
    rw [hk .qwen2moe base v hv]
    exact ⟨_, rfl⟩
  | qwen3 =>
    obtain ⟨hk, v, hv⟩ := hb
    unfold generate generateQwen3
    simp only
    repeat rw [set_other _ _ (by decide)]
    rw [hk .qwen3moe base v hv]
    exact ⟨_, rfl⟩

/-- C124: a run that can finish does.  If the configuration is acceptable, a layout was found, the routers and the output type are known, the base
model's configuration has the entries that are needed, the tensors can be read, and (in the DeepSeek layout) the directory is there, then no error
is raised. -/
theorem C124_runs {env : Env M K V W} {source : Str} {c : Config M K} {flags : Flags} {dir : Dir V} {a : OutArch} {rows : List (List W × List W)}
    {d : Option DType} {ts : List (Str × V)} (hprobe : ∀ p, (env.gates.probe c.gateMode p).length = env.layers c.base)
    (hbad : isBad c flags.allowAllSame = false) (ha : selectArch c env.typeOf = some a)
    (hrows : routersOf env.gates c (env.layers c.base) = .ok rows) (hd : selectDtype flags.dtype (env.cfg c.base) = .ok d)
    (hb : HasEntries env.lib (env.cfg c.base) a) (hts : writeTensors env c d rows a = .ok ts) (hdir : a = .deepseek → dir.there = true) :
    (main env source c flags dir).2 = none := by
  obtain ⟨cfg, hcfg⟩ := C124_configured env.lib (env.cfg c.base) c env.typeOf a ha hb
  have hlen := (C57_router_rows hprobe hrows).1
  have hw : ∃ dir2, writeModel env c flags a rows dir = (dir2, none) := by
    unfold writeModel
    rw [if_neg (by rw [hlen]; simp), hd]
    simp only [hcfg]
    rw [if_neg (by rintro ⟨h1, h2⟩; rw [hdir h1] at h2; simp at h2), hts]
    exact ⟨_, rfl⟩
  obtain ⟨dir2, hw⟩ := hw
  unfold main build
  simp [hbad, ha, hrows, hw]

/-- C124: the DeepSeek layout is only written to a directory that is already there; the others make it. -/
theorem C124_deepseek_directory (env : Env M K V W) (source : Str) (c : Config M K) (flags : Flags) (dir : Dir V) (ha : selectArch c env.typeOf = some .deepseek)
    (hdir : dir.there = false) (dir' : Dir V) : main env source c flags dir ≠ (dir', none) := by
  intro h
  obtain ⟨_, a, _, _, _, _, ha', _, _, _, _, hd, _, _⟩ := main_ok h
  rw [ha] at ha'
  cases ha'
  rw [hd rfl] at hdir
  cases hdir

/-- C124: a mixture in the Mixtral or the Qwen3 layout, made with the shipped definitions, can be merged further: from its `config.json` mergekit
finds the shipped definition of the mixture (in whatever order the definitions were read), with the number of layers of the base model, and the
tensors are complete for it. -/
theorem C124_mergeable [Inhabited V] {env : Env M K V W} {source : Str} {c : Config M K} {flags : Flags} {dir dir' : Dir V}
    (hprobe : ∀ p, (env.gates.probe c.gateMode p).length = env.layers c.base)
    (hmistral : Verif.Arch.allWeights (Verif.Arch.Data.mistral.zip [env.layers c.base]) = .ok (env.weights .mixtral c.base))
    (hqwen3 : Verif.Arch.allWeights (Verif.Arch.Data.qwen3.zip [env.layers c.base]) = .ok (env.weights .qwen3 c.base))
    (hlayers : env.cfg c.base cs!"num_hidden_layers" = some (.int (env.layers c.base))) (hkeep : Keeps env.lib cs!"num_hidden_layers")
    (h : main env source c flags dir = (dir', none))
    (ha : selectArch c env.typeOf = some .mixtral ∨ selectArch c env.typeOf = some .qwen3)
    (afmoe glm4 : Verif.Infer.ModelInfo → List Module) (l : List (List Str × Str × List Module)) (hl : l.Perm Verif.Arch.Data.known) (modelType : Str) :
    ∃ cfg ts n name ms ws, dir'.config = some cfg ∧ dir'.tensors = some ts ∧
      cfg cs!"num_hidden_layers" = some (.int n) ∧ cfg cs!"architectures" = some (.texts [name]) ∧
      Verif.Infer.archFor { python := Verif.Arch.Data.pythonKnown afmoe glm4, json := l } { architectures := [name], modelType := modelType } = .ok (some ms) ∧
      Verif.Arch.allWeights (ms.zip [(n : Int).toNat]) = .ok ws ∧ Complete ts ws (fun s => ∃ t, env.disk c.base s = some t) := by
  obtain ⟨hbad, a, rows, d, cfg, ts, ha', hrows, hd, hcfg, hts, _, hmix, rfl⟩ := main_ok h
  have hacc : 1 ≤ c.expertsPerToken := by
    have hb := (C58_refused_partial c flags.allowAllSame).not.1 (by rw [hbad]; simp)
    rw [not_or, not_not] at hb
    exact hb.1.1
  obtain ⟨g1, g2, g3, g4⟩ := C124_config env.lib (env.cfg c.base) c a cfg hacc hcfg
  have hr1 := (C57_router_rows hprobe hrows).1
  have hwd : ∀ k, k ≠ cs!"torch_dtype" → withDtype a d cfg k = cfg k := by
    intro k hk
    unfold withDtype
    split
    · exact set_other _ _ hk
    · rfl
    · exact set_other _ _ hk
  rcases ha with ha | ha
  · rw [ha] at ha'
    cases ha'
    obtain ⟨ws, hws, _⟩ := Verif.Arch.C63_shipped Verif.Arch.Data.mixtral (by unfold Verif.Arch.distinctArchs; simp) [env.layers c.base] rfl
    refine ⟨_, ts, env.layers c.base, cs!"MixtralForCausalLM", Verif.Arch.Data.mixtral, ws, rfl, rfl, ?_, ?_, ?_, hws, ?_⟩
    · rw [hwd _ (by decide)]
      exact g4 _ _ (by decide) hkeep hlayers
    · rw [hwd _ (by decide), g1]; rfl
    · exact Verif.Infer.C90_shipped_once afmoe glm4 l hl ([cs!"MixtralForCausalLM"], cs!"mixtral", Verif.Arch.Data.mixtral)
        (by unfold Verif.Arch.Data.known; simp) _ (by simp) (by decide) (by decide) modelType
    · exact C124_mixtral_again hmistral hws hts
  · rw [ha] at ha'
    cases ha'
    obtain ⟨ws, hws, _⟩ := Verif.Arch.C63_shipped Verif.Arch.Data.qwen3_moe (by unfold Verif.Arch.distinctArchs; simp) [env.layers c.base] rfl
    refine ⟨_, ts, env.layers c.base, cs!"Qwen3MoeForCausalLM", Verif.Arch.Data.qwen3_moe, ws, rfl, rfl, ?_, ?_, ?_, hws, ?_⟩
    · rw [hwd _ (by decide)]
      exact g4 _ _ (by decide) hkeep hlayers
    · rw [hwd _ (by decide), g1]; rfl
    · exact Verif.Infer.C90_shipped_once afmoe glm4 l hl ([cs!"Qwen3MoeForCausalLM"], cs!"qwen3_moe", Verif.Arch.Data.qwen3_moe)
        (by unfold Verif.Arch.Data.known; simp) _ (by simp) (by decide) (by decide) modelType
    · exact C124_qwen3_again (by rw [List.length_map, hr1]) hqwen3 hws hts

/-! ## Cases -/

/-- A library that keeps everything; classes put their model type in. -/
def plainLib : Lib where
  make cls d := d.set cs!"model_type" (.text (match cls with
    | .mistral => cs!"mistral"
    | .mixtral => cs!"mixtral"
    | .qwen2moe => cs!"qwen2_moe"
    | .qwen3moe => cs!"qwen3_moe"))
  isMistral d := d cs!"model_type" == some (.text cs!"mistral")

theorem plainLib_keeps {k : Str} (h : k ≠ cs!"model_type") : Keeps plainLib k := by
  intro cls d v hv
  exact (set_other _ _ h).trans hv

/-- The configuration of a model with one layer. -/
def oneLayer (kind : Str) (size : Nat) : Cfg := fun k =>
  if k = cs!"model_type" then some (.text kind)
  else if k = cs!"num_hidden_layers" then some (.int 1)
  else if k = cs!"intermediate_size" then some (.int size)
  else if k = cs!"max_position_embeddings" then some (.int 2048)
  else if k = cs!"torch_dtype" then some (.text cs!"bfloat16")
  else none

def oneGates : Gates Str where
  probe _ p := [p.flatten]
  sub a b := a ++ cs!"-" ++ b
  unit a := cs!"|" ++ a ++ cs!"|"
  random l i := Nat.toDigits 10 l ++ cs!"," ++ Nat.toDigits 10 i

/-- The weights of a shipped definition for one layer. -/
def shippedOne (ms : List Module) : List WeightInfo :=
  match Verif.Arch.allWeights (ms.zip [1]) with
  | .ok ws => ws
  | .error _ => []

/-- Models with one layer, their tensors short texts. -/
def sampleEnv (kind : Str) : Env Nat Nat Str Str where
  lib := plainLib
  cfg m := oneLayer kind (if m = 0 then 4 else 8)
  typeOf _ := kind
  layers _ := 1
  disk := shortDisk
  weights a _ := match a with
    | .mixtral => shippedOne Verif.Arch.Data.mistral
    | .deepseek => shippedOne Verif.Arch.Data.llama
    | .qwen => shippedOne Verif.Arch.Data.qwen2
    | .qwen3 => shippedOne Verif.Arch.Data.qwen3
  tokenizer _ := { paddingSide := cs!"right", bos := some 1, eos := some 2, pad := some 0, rest := 7 }
  gates := oneGates
  stack := List.flatten
  ops _ := textOps
  mixtralTransforms := mixtralPackers
  qwen3Transforms := qwen3Packers

theorem shippedOne_ok (ms : List Module) (h : ms ∈ [Verif.Arch.Data.llama, Verif.Arch.Data.mistral, Verif.Arch.Data.qwen2, Verif.Arch.Data.qwen3]) :
    Verif.Arch.allWeights (ms.zip [1]) = .ok (shippedOne ms) ∧ ∀ w ∈ shippedOne ms, Single w.name := by
  obtain ⟨ws, h1, _, h2⟩ := C57_shipped_names ms h 1
  unfold shippedOne
  rw [h1]
  exact ⟨rfl, h2⟩

/-- The hypotheses of the theorems are met. -/
example (kind : Str) : Sound (sampleEnv kind) (fun _ _ => packed) (fun _ _ => packed) where
  mixtral2 := packer_two (by decide) _ _
  mixtral1 := packer_one (by decide) (by decide) _ _
  qwen32 := packer_two (by decide) _ _
  qwen31 := packer_one (by decide) (by decide) _ _
  single a _ := by
    cases a
    · exact (shippedOne_ok Verif.Arch.Data.mistral (by simp)).2
    · exact (shippedOne_ok Verif.Arch.Data.llama (by simp)).2
    · exact (shippedOne_ok Verif.Arch.Data.qwen2 (by simp)).2
    · exact (shippedOne_ok Verif.Arch.Data.qwen3 (by simp)).2

example (kind : Str) (p : List Str) : ((sampleEnv kind).gates.probe plainTwo.gateMode p).length = (sampleEnv kind).layers plainTwo.base := rfl

example (kind : Str) : (sampleEnv kind).cfg plainTwo.base cs!"num_hidden_layers" = some (.int ((sampleEnv kind).layers plainTwo.base)) := by rfl

example : Verif.Arch.allWeights (Verif.Arch.Data.mistral.zip [(sampleEnv cs!"llama").layers 0]) = .ok ((sampleEnv cs!"llama").weights .mixtral 0) :=
  (shippedOne_ok _ (by simp)).1

/-- Two Llama models become a Mixtral model, in a new directory. -/
theorem sample_mixtral : (main (sampleEnv cs!"llama") cs!"text" plainTwo {} {}).2 = none := by decide +kernel

/-- Two Qwen3 models become a Qwen3-MoE model. -/
theorem sample_qwen3 : (main (sampleEnv cs!"qwen3") cs!"text" plainTwo {} {}).2 = none := by decide +kernel

example : selectArch plainTwo (sampleEnv cs!"llama").typeOf = some .mixtral ∧ selectArch plainTwo (sampleEnv cs!"qwen3").typeOf = some .qwen3 := by decide

example : ((main (sampleEnv cs!"llama") cs!"text" plainTwo {} {}).1.config.bind (fun cfg => cfg cs!"num_local_experts")) = some (.int 2) ∧
    ((main (sampleEnv cs!"llama") cs!"text" plainTwo {} {}).1.config.bind (fun cfg => cfg cs!"torch_dtype")) = some (.dtype .bfloat16) ∧
    ((main (sampleEnv cs!"llama") cs!"text" plainTwo {} {}).1.config.bind (fun cfg => cfg cs!"model_type")) = some (.text cs!"mixtral") := by
  refine ⟨?_, ?_, ?_⟩ <;> decide +kernel

def inDeepseek : Config Nat Nat := { plainTwo with architecture := some cs!"deepseek" }

/-- C124 does not hold for the DeepSeek layout: an acceptable configuration, all models readable, yet the run fails if the output directory is not
there. -/
theorem C124_deepseek_new_directory : (main (sampleEnv cs!"llama") cs!"text" inDeepseek {} {}).2 = some .noDirectory ∧
    (main (sampleEnv cs!"llama") cs!"text" inDeepseek {} { there := true }).2 = none := by
  constructor <;> decide +kernel

/-- The same with one expert shared by all tokens. -/
def withShared : Config Nat Nat := { inDeepseek with shared := some [{ source := 2, residualScale := some 1 }] }

/-- The hypotheses of `C124_runs` and `C124_configured` are met: one shared expert in the DeepSeek layout. -/
example : isBad withShared false = false ∧ selectArch withShared (sampleEnv cs!"llama").typeOf = some .deepseek ∧
    (main (sampleEnv cs!"llama") cs!"text" withShared {} { there := true }).2 = none := by
  refine ⟨by decide, by decide, by decide +kernel⟩

example : HasEntries (sampleEnv cs!"llama").lib ((sampleEnv cs!"llama").cfg 0) .deepseek := ⟨.int 4, by rfl⟩

/-- C124: the sizes in `config.json` are the base model's even if the experts, whose tensors are written, have others: the experts' feed-forward size
is 8 here, the one recorded is 4. -/
theorem C124_sizes : ∃ (env : Env Nat Nat Str Str) (c : Config Nat Nat), (main env cs!"text" c {} { there := true }).2 = none ∧
    (∀ e ∈ c.experts, env.cfg e.source cs!"intermediate_size" = some (.int 8)) ∧
    ((main env cs!"text" c {} { there := true }).1.config.bind (fun cfg => cfg cs!"moe_intermediate_size")) = some (.int 4) := by
  refine ⟨sampleEnv cs!"llama", inDeepseek, by decide +kernel, ?_, by decide +kernel⟩
  decide +kernel

/-- C124: the tokenizer written is not the base model's: it pads on the other side, with another token. -/
theorem C124_tokenizer : (main (sampleEnv cs!"llama") cs!"text" plainTwo {} {}).1.tokenizer =
    some { paddingSide := cs!"left", bos := some 1, eos := some 2, pad := some 1, rest := 7 } ∧
    (sampleEnv cs!"llama").tokenizer plainTwo.base = { paddingSide := cs!"right", bos := some 1, eos := some 2, pad := some 0, rest := 7 } := by
  constructor <;> decide +kernel

/-- The same, but the tensors of model 2 cannot be read. -/
def brokenEnv : Env Nat Nat Str Str := { sampleEnv cs!"llama" with disk := fun m name => if m = 2 then none else shortDisk m name }

/-- C124: a run that fails while the tensors are written leaves a `config.json` behind that describes a model which is not there. -/
theorem C124_left_behind : (main brokenEnv cs!"text" plainTwo {} {}).2 = some (.run (.key cs!"model.layers.0.mlp.gate_proj.weight")) ∧
    ((main brokenEnv cs!"text" plainTwo {} {}).1.config.bind (fun cfg => cfg cs!"num_local_experts")) = some (.int 2) ∧
    (main brokenEnv cs!"text" plainTwo {} {}).1.tensors = none := by
  refine ⟨?_, ?_, ?_⟩ <;> decide +kernel

/-- The hypotheses of `C124_failed` are met: a refused configuration. -/
example : (main (sampleEnv cs!"llama") cs!"text" { plainTwo with expertsPerToken := 3 } {} {}).2 = some .exit := by decide +kernel

end Verif.Moe
