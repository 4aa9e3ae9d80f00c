import Verif.Props.MoeRouter
import Verif.Props.ArchRepeats
import Verif.Props.ArchFill

/-! # C57: the definitions the mixture-of-experts layouts start from, and instances of the theorems -/

set_option linter.unusedSectionVars false

namespace Verif.Moe

open Verif.ModelRef (Str)
open Verif.Arch (WeightInfo hasMlp Module expand substitute)
open Verif.Convert (Transform)

variable {M K V W : Type} [DecidableEq M]

/-! ## Names of the shipped definitions -/

theorem single_of_unique {name : Str}
    (h : ∀ pre post pre' post', name = pre ++ cs!".mlp." ++ post → name = pre' ++ cs!".mlp." ++ post' → pre.length = pre'.length) : Single name := by
  intro pre post hn
  constructor
  · rintro ⟨a, b, hab⟩
    have h1 : name = a ++ cs!".mlp." ++ (b ++ '.' :: post) := by
      have e : pre ++ cs!".mlp." ++ post = (pre ++ cs!".mlp") ++ '.' :: post := by simp
      rw [hn, e, ← hab]
      simp
    have := h _ _ _ _ hn h1
    have hl := congrArg List.length hab
    simp at hl
    omega
  · rintro ⟨a, b, hab⟩
    have h1 : name = (pre ++ cs!".mlp." ++ a) ++ cs!".mlp." ++ b := by
      rw [hn, ← hab]
      simp
    have := h _ _ _ _ hn h1
    simp at this

theorem single_of_not {name : Str} (h : ¬ cs!".mlp." <:+: name) : Single name := by
  intro pre post hn
  exact absurd ⟨pre, post, hn.symm⟩ h

/-- Where `".mlp."` starts in a text. -/
def starts (s : Str) : List Nat := (List.range (s.length + 1)).filter (fun k => cs!".mlp.".isPrefixOf (s.drop k))

theorem starts_mem {s pre post : Str} (h : s = pre ++ cs!".mlp." ++ post) : pre.length ∈ starts s := by
  unfold starts
  rw [List.mem_filter, List.mem_range]
  refine ⟨by rw [h]; simp; omega, ?_⟩
  rw [h, List.append_assoc, List.drop_left]
  exact List.isPrefixOf_iff_prefix.2 ⟨post, rfl⟩

theorem split_at_digits {a d b pre post : Str} (hd : d ≠ []) (hdig : ∀ c ∈ d, c.isDigit = true) (ha : ¬ cs!".mlp." <:+: a)
    (h : a ++ d ++ b = pre ++ cs!".mlp." ++ post) : ∃ pre', pre = a ++ d ++ pre' ∧ b = pre' ++ cs!".mlp." ++ post := by
  rw [List.append_assoc, List.append_assoc, List.append_eq_append_iff] at h
  rcases h with ⟨x, hx, h⟩ | ⟨x, hx, h⟩
  · -- `a` is a prefix of `pre`
    rw [List.append_eq_append_iff] at h
    rcases h with ⟨y, hy, h⟩ | ⟨y, hy, h⟩
    · exact ⟨y, by rw [hx, hy, List.append_assoc], by rw [h, List.append_assoc]⟩
    · -- the digits reach into what follows
      cases y with
      | nil => exact ⟨[], by rw [hx, hy]; simp, by simpa using h.symm⟩
      | cons c y =>
        have hc := hdig c (by rw [hy]; simp)
        simp only [List.cons_append] at h
        have : '.' = c := by
          have := congrArg List.head? h
          simpa using this
        rw [← this] at hc
        exact absurd hc (by decide)
  · -- `pre` is a proper prefix of `a`
    exfalso
    have hlen : (cs!".mlp.").length ≤ x.length ∨ x.length < (cs!".mlp.").length := by omega
    rcases hlen with hlen | hlen
    · have hp : cs!".mlp." <+: x := by
        refine List.prefix_of_prefix_length_le (l₃ := x ++ (d ++ b)) ?_ (List.prefix_append _ _) hlen
        rw [← h]
        exact List.prefix_append _ _
      exact ha (hp.isInfix.trans ⟨pre, [], by rw [hx]; simp⟩)
    · -- a digit would be part of ".mlp."
      obtain ⟨c, d', rfl⟩ := List.exists_cons_of_ne_nil hd
      have hc := hdig c (by simp)
      have hget : (cs!".mlp." ++ post)[x.length]? = (x ++ (c :: d' ++ b))[x.length]? := by rw [h]
      rw [List.getElem?_append_right (le_refl _), List.getElem?_append_left hlen] at hget
      simp only [Nat.sub_self, List.cons_append, List.getElem?_cons_zero] at hget
      have hm : c ∈ cs!".mlp." := List.mem_of_getElem? hget
      have : ∀ c ∈ cs!".mlp.", c.isDigit = false := by decide
      rw [this c hm] at hc
      cases hc

theorem single_layer {rest : Str} (h : (starts rest).length ≤ 1) (i : Nat) : Single (cs!"model.layers." ++ Nat.toDigits 10 i ++ rest) := by
  refine single_of_unique ?_
  intro pre post pre' post' h1 h2
  have hd := Nat.toDigits_ne_nil (n := i) (b := 10)
  have ha : ¬ cs!".mlp." <:+: cs!"model.layers." := by decide
  obtain ⟨x, hx, e1⟩ := split_at_digits hd (Verif.Writer.digits_all i) ha h1
  obtain ⟨y, hy, e2⟩ := split_at_digits hd (Verif.Writer.digits_all i) ha h2
  have m1 := starts_mem e1
  have m2 := starts_mem e2
  have : x.length = y.length := by
    match hs : starts rest with
    | [] => rw [hs] at m1; cases m1
    | [k] =>
      rw [hs, List.mem_singleton] at m1 m2
      omega
    | k :: l :: r => rw [hs] at h; simp at h
  rw [hx, hy]
  simp [this]

/-- A name outside of the layers, and one of a layer. -/
def plainOk (name : Str) : Bool := decide ('{' ∉ name) && !name.tails.any (fun t => cs!".mlp.".isPrefixOf t)

def layerOk (name : Str) : Bool :=
  cs!"model.layers.${layer_index}".isPrefixOf name &&
    (decide ('$' ∉ name.drop 27) && decide ((starts (name.drop 27)).length ≤ 1))

def moduleOk (m : Module) : Bool :=
  (m.pre ++ m.post).all (fun w => plainOk w.name) && m.layers.all (fun w => layerOk w.name) && decide (m.weightPrefix = none)

theorem prefixWeight_none (u : WeightInfo) : Verif.Arch.prefixWeight u none = u := rfl

theorem single_of_module {m : Module} (hm : moduleOk m = true) (n : Nat) {ws : List WeightInfo} (h : Verif.Arch.allWeights [(m, n)] = .ok ws) :
    ∀ w ∈ ws, Single w.name := by
  unfold moduleOk at hm
  simp only [Bool.and_eq_true, List.all_eq_true, decide_eq_true_eq] at hm
  obtain ⟨⟨h1, h2⟩, h3⟩ := hm
  intro v hv
  obtain ⟨p, hp, us, hus, u, hu, rfl⟩ := (Verif.Arch.C63_model _ _ h v).1 hv
  rw [List.mem_singleton] at hp
  subst hp
  simp only at hus
  rw [h3, prefixWeight_none]
  rcases ((Verif.Arch.C63_module m n us hus).1 u).1 hu with ⟨w, hw, hsub⟩ | ⟨i, _, w, hw, hsub⟩
  · have hok := h1 w hw
    unfold plainOk at hok
    simp only [Bool.and_eq_true, decide_eq_true_eq, Bool.not_eq_true'] at hok
    have he := ((Verif.Arch.C63_weight _ _ _ _).1 hsub).1
    rw [Verif.Arch.C63_plain _ hok.1] at he
    rw [← Except.ok.inj he]
    refine single_of_not ?_
    rw [← any_prefix_iff, hok.2]
    simp
  · have hok := h2 w hw
    unfold layerOk at hok
    simp only [Bool.and_eq_true, decide_eq_true_eq] at hok
    obtain ⟨ho1, ho2, ho3⟩ := hok
    obtain ⟨rest, hrest⟩ := List.isPrefixOf_iff_prefix.1 ho1
    have hdrop : w.name.drop 27 = rest := by
      rw [← hrest]
      rfl
    rw [hdrop] at ho2 ho3
    have he := ((Verif.Arch.C63_weight _ _ _ _).1 hsub).1
    have hr := (Verif.Arch.C63_replaces cs!"model.layers." rest (by decide) ho2 (match m.overrideNumLayers with | some k => k | none => n) i)
    have hname : w.name = cs!"model.layers." ++ "${layer_index}".toList ++ rest := by
      rw [← hrest]
      rfl
    rw [hname] at he
    rw [Except.ok.inj (he.symm.trans hr)]
    exact single_layer ho3 i

/-- C57: the definitions that the layouts start from (Llama, Mistral, Qwen2, Qwen3) have distinct names with at most one `".mlp."`, for every
number of layers; this is what the theorems on the layouts ask of them. -/
theorem C57_shipped_names (ms : List Module) (hms : ms ∈ [Verif.Arch.Data.llama, Verif.Arch.Data.mistral, Verif.Arch.Data.qwen2, Verif.Arch.Data.qwen3])
    (n : Nat) : ∃ ws, Verif.Arch.allWeights (ms.zip [n]) = .ok ws ∧ (ws.map WeightInfo.name).Nodup ∧ ∀ w ∈ ws, Single w.name := by
  have hin : ms ∈ Verif.Arch.distinctArchs ∧ ∃ m, ms = [m] ∧ moduleOk m = true := by
    simp only [List.mem_cons, List.not_mem_nil, or_false] at hms
    rcases hms with rfl | rfl | rfl | rfl
    · exact ⟨by unfold Verif.Arch.distinctArchs; simp, _, rfl, by decide +kernel⟩
    · exact ⟨by unfold Verif.Arch.distinctArchs; simp, _, rfl, by decide +kernel⟩
    · exact ⟨by unfold Verif.Arch.distinctArchs; simp, _, rfl, by decide +kernel⟩
    · exact ⟨by unfold Verif.Arch.distinctArchs; simp, _, rfl, by decide +kernel⟩
  obtain ⟨hin, m, rfl, hok⟩ := hin
  obtain ⟨ws, hws, hnd⟩ := Verif.Arch.C63_shipped [m] hin [n] rfl
  exact ⟨ws, hws, hnd, single_of_module hok n hws⟩

/-! ## Instances -/

/-- Operations on texts instead of tensors. -/
def textOps : Ops Str Nat where
  noise _ s t := cs!"noise " ++ Nat.toDigits 10 s ++ cs!" " ++ t
  scale s t := cs!"scaled " ++ Nat.toDigits 10 s ++ cs!" " ++ t
  cast t := t
  zeros _ := cs!"zeros"

/-- Every model stores everything, tensors being the model's number and the name. -/
def fullDisk : Nat → Loader Str := fun m name => some (Nat.toDigits 10 m ++ cs!":" ++ name)

/-- Two experts, the second with noise and a scale; the base model is the shared expert. -/
def twoExperts : Config Nat Nat where
  base := 0
  experts := [{ source := 1, positive := some [cs!"a"] }, { source := 2, positive := some [cs!"b"], negative := some [cs!"c"], noiseScale := some 3, residualScale := some 4 }]
  shared := some [{ source := 0 }]

/-- A weight for the base model and two for the experts. -/
def someWeights : List WeightInfo :=
  [{ name := cs!"model.norm.weight" }, { name := cs!"model.layers.0.mlp.up_proj.weight" }, { name := cs!"model.layers.0.mlp.down_proj.weight" }]

theorem someWeights_single : ∀ w ∈ someWeights, Single w.name := by
  intro w hw
  simp only [someWeights, List.mem_cons, List.not_mem_nil, or_false] at hw
  rcases hw with rfl | rfl | rfl
  · exact single_of_not (by decide)
  · exact single_layer (rest := cs!".mlp.up_proj.weight") (by decide) 0
  · exact single_layer (rest := cs!".mlp.down_proj.weight") (by decide) 0

/-- What is saved in the DeepSeek layout. -/
example : writeDeepseek textOps fullDisk twoExperts someWeights [cs!"r"] = .ok [
    (cs!"model.norm.weight", cs!"0:model.norm.weight"),
    (cs!"model.layers.0.mlp.experts.0.up_proj.weight", cs!"1:model.layers.0.mlp.up_proj.weight"),
    (cs!"model.layers.0.mlp.experts.1.up_proj.weight", cs!"noise 3 2:model.layers.0.mlp.up_proj.weight"),
    (cs!"model.layers.0.mlp.shared_experts.up_proj.weight", cs!"0:model.layers.0.mlp.up_proj.weight"),
    (cs!"model.layers.0.mlp.experts.0.down_proj.weight", cs!"1:model.layers.0.mlp.down_proj.weight"),
    (cs!"model.layers.0.mlp.experts.1.down_proj.weight", cs!"scaled 4 noise 3 2:model.layers.0.mlp.down_proj.weight"),
    (cs!"model.layers.0.mlp.shared_experts.down_proj.weight", cs!"0:model.layers.0.mlp.down_proj.weight"),
    (cs!"model.layers.0.mlp.gate.weight", cs!"r")] := by decide +kernel

/-- The hypotheses of `C57_deepseek_finishes`, `C57_deepseek` and `C57_deepseek_distinct` are met. -/
example : ∃ saved, writeDeepseek textOps fullDisk twoExperts someWeights [cs!"r"] = .ok saved ∧ (saved.map Prod.fst).Nodup ∧
    ∀ x, x ∈ saved ↔ ExpertPart textOps fullDisk twoExperts someWeights cs!"shared_experts" x ∨ BasePart textOps fullDisk twoExperts someWeights x ∨
      RouterPart textOps cs!"gate.weight" [cs!"r"] x := by
  have hst : ∀ m (w : WeightInfo), ∃ t, FirstStored (fullDisk m) (namesOf w) t := fun m w =>
    ⟨_, [], w.name, _, rfl, rfl, by simp⟩
  obtain ⟨saved, h⟩ := C57_deepseek_finishes textOps (disk := fullDisk) (c := twoExperts) (weights := someWeights) [cs!"r"]
    (by intro w hw; simp only [someWeights, List.mem_cons, List.not_mem_nil, or_false] at hw; rcases hw with rfl | rfl | rfl <;> exact Or.inr (Or.inl rfl))
    (by intro e rest he; cases he; exact Or.inl rfl)
    (fun w _ _ _ => ⟨fun e _ => hst _ w, fun e _ _ => hst _ w⟩) (fun w _ _ _ => hst _ w)
  exact ⟨saved, h, C57_deepseek_distinct (by decide) someWeights_single h, (C57_deepseek someWeights_single h).1⟩

/-- A shared expert that is another model: the hypotheses of `C57_shared_not_loaded` are met by a configuration for which DeepSeek's layout is
chosen. -/
def strangeShared : Config Nat Nat := { twoExperts with shared := some [{ source := 7 }] }

/-- C76 fails for shared experts that are not among the models otherwise used: the configuration is accepted and a layout chosen, but nothing can
be written, whatever the models store and whatever the routers are. -/
theorem C76_chosen_not_written : ∃ (c : Config Nat Nat) (weights : List WeightInfo), isBad c false = false ∧
    selectArch c (fun _ => cs!"mistral") = some .deepseek ∧ ∀ (V : Type) (ops : Ops V Nat) (disk : Nat → Loader V) (routers : List V) (out : List (Str × V)),
      writeDeepseek ops disk c weights routers ≠ .ok out :=
  ⟨strangeShared, someWeights, by decide, by decide, fun _ ops disk routers out =>
    (C57_shared_not_loaded ops disk strangeShared someWeights routers rfl (by decide) (by decide)
      (w := { name := cs!"model.layers.0.mlp.up_proj.weight" }) (by simp [someWeights]) (by decide) out).1⟩

/-- The Qwen layout, with a bias the base model does not store. -/
def qwenDisk : Nat → Loader Str := fun m name => if name = cs!"model.layers.0.self_attn.q_proj.bias" then none else fullDisk m name

def qwenWeights : List WeightInfo := { name := cs!"model.layers.0.self_attn.q_proj.bias" } :: someWeights

theorem qwenWeights_single : ∀ w ∈ qwenWeights, Single w.name := by
  intro w hw
  rcases List.mem_cons.1 hw with rfl | hw
  · exact single_of_not (by decide)
  · exact someWeights_single w hw

/-- The hypotheses of `C57_qwen` and `C57_qwen_distinct` are met. -/
example : ∃ saved, writeQwen textOps qwenDisk twoExperts qwenWeights [cs!"r"] [cs!"s"] = .ok saved ∧ saved.length = 10 ∧
    saved.head? = some (cs!"model.layers.0.self_attn.q_proj.bias", cs!"zeros") ∧
    saved.getLast? = some (cs!"model.layers.0.mlp.shared_expert_gate.weight", cs!"s") ∧ (saved.map Prod.fst).Nodup := by
  obtain ⟨saved, h, h1, h2, h3⟩ : ∃ saved, writeQwen textOps qwenDisk twoExperts qwenWeights [cs!"r"] [cs!"s"] = .ok saved ∧ saved.length = 10 ∧
    saved.head? = some (cs!"model.layers.0.self_attn.q_proj.bias", cs!"zeros") ∧
    saved.getLast? = some (cs!"model.layers.0.mlp.shared_expert_gate.weight", cs!"s") :=
    ⟨_, by rfl, by decide +kernel, by decide +kernel, by decide +kernel⟩
  exact ⟨saved, h, h1, h2, h3, C57_qwen_distinct (by decide) qwenWeights_single h⟩

/-! ### Packed layouts -/

/-- A converter like those of the transformers library: parts whose name ends as given are collected in one tensor per layer. -/
def packer (params : List Str) (target : Str) : Transform Str where
  isRenaming := false
  rename k :=
    match Verif.Convert.cutAt cs!".mlp." k with
    | none => (k, none)
    | some (pre, post) =>
      match params.find? (fun p => p.isSuffixOf post) with
      | none => (k, none)
      | some p => (pre ++ cs!".mlp." ++ target, some p)
  sourcePatterns := params
  targetPatterns := [target]
  run layer added := [(layer, ((params.map (fun q => (added.filter (fun a => a.2.1 = q)).map (fun a => a.2.2))).flatten).flatten)]

theorem packer_rename {params : List Str} (target : Str) (layer e : Nat) {q : Str} :
    (packer params target).rename (layerName layer cs!"experts." ++ Nat.toDigits 10 e ++ q) =
      match params.find? (fun p => p.isSuffixOf (cs!"experts." ++ Nat.toDigits 10 e ++ q)) with
      | none => (layerName layer cs!"experts." ++ Nat.toDigits 10 e ++ q, none)
      | some p => (layerName layer target, some p) := by
  have h := layerName_cut layer (cs!"experts." ++ Nat.toDigits 10 e ++ q)
  have e1 : layerName layer cs!"experts." ++ Nat.toDigits 10 e ++ q = layerName layer (cs!"experts." ++ Nat.toDigits 10 e ++ q) := by
    unfold layerName
    simp [List.append_assoc]
  rw [e1]
  simp only [packer, h]
  rfl

theorem suffix_test {p q : Str} (h : ¬ p <:+ q ∧ ¬ q <:+ p) (x : Str) : p.isSuffixOf (x ++ q) = false := by
  rw [Bool.eq_false_iff]
  intro hs
  rw [List.isSuffixOf_iff_suffix] at hs
  rcases List.suffix_or_suffix_of_suffix hs (List.suffix_append x q) with h' | h'
  · exact h.1 h'
  · exact h.2 h'

theorem suffix_self (q x : Str) : q.isSuffixOf (x ++ q) = true := List.isSuffixOf_iff_suffix.2 (List.suffix_append x q)

/-- The value of `packer`. -/
def packed (g : List (List Str)) : Str := g.flatten.flatten

theorem packer_two {a b : Str} (hab : ¬ a <:+ b ∧ ¬ b <:+ a) (target : Str) (rest : List (Transform Str)) (layer : Nat) :
    PacksExperts (packer [a, b] target :: rest) layer [a, b] target packed where
  found := by
    refine ⟨[], packer [a, b] target, rest, id, rfl, ⟨rfl, ⟨_, rfl⟩, fun _ => rfl⟩, by simp [packer], by simp, by simp, ?_⟩
    intro e p hp
    rw [packer_rename]
    simp only [List.mem_cons, List.not_mem_nil, or_false] at hp
    rcases hp with rfl | rfl
    · simp only [List.find?_cons, suffix_self, id]
    · simp only [List.find?_cons, suffix_test hab, suffix_self, id]

theorem packer_one {a b d : Str} (had : ¬ a <:+ d ∧ ¬ d <:+ a) (hbd : ¬ b <:+ d ∧ ¬ d <:+ b) (t1 target : Str) (layer : Nat) :
    PacksExperts [packer [a, b] t1, packer [d] target] layer [d] target packed where
  found := by
    refine ⟨[packer [a, b] t1], packer [d] target, [], id, rfl, ⟨rfl, ⟨_, rfl⟩, fun _ => rfl⟩, by simp [packer], by simp, ?_, ?_⟩
    · intro u hu e p hp
      rw [List.mem_singleton] at hu hp
      subst hu hp
      rw [packer_rename]
      simp only [List.find?_cons, suffix_test had, suffix_test hbd, List.find?_nil]
    · intro e p hp
      rw [List.mem_singleton] at hp
      subst hp
      rw [packer_rename]
      simp only [List.find?_cons, suffix_self, id]

def mixtralPackers : List (Transform Str) :=
  [packer [cs!".w1.weight", cs!".w3.weight"] cs!"experts.gate_up_proj", packer [cs!".w2.weight"] cs!"experts.down_proj"]

def qwen3Packers : List (Transform Str) :=
  [packer [cs!".gate_proj.weight", cs!".up_proj.weight"] cs!"experts.gate_up_proj", packer [cs!".down_proj.weight"] cs!"experts.down_proj"]

/-- Short tensors, to keep the results short. -/
def shortDisk : Nat → Loader Str := fun m name =>
  if cs!".mlp.gate_proj".isSuffixOf (name.take (name.length - 7)) then some (cs!"g" ++ Nat.toDigits 10 m)
  else if cs!".mlp.up_proj".isSuffixOf (name.take (name.length - 7)) then some (cs!"u" ++ Nat.toDigits 10 m)
  else if cs!".mlp.down_proj".isSuffixOf (name.take (name.length - 7)) then some (cs!"d" ++ Nat.toDigits 10 m)
  else some cs!"x"

/-- Two experts without a shared one. -/
def plainTwo : Config Nat Nat := { twoExperts with shared := none }

/-- The hypotheses of `C57_mixtral` are met. -/
example : (∀ layer, PacksExperts mixtralPackers layer [cs!".w1.weight", cs!".w3.weight"] cs!"experts.gate_up_proj" packed) ∧
    (∀ layer, PacksExperts mixtralPackers layer [cs!".w2.weight"] cs!"experts.down_proj" packed) ∧
    writeMixtral textOps shortDisk plainTwo someWeights mixtralPackers 1 [cs!"r"] = .ok [
      (cs!"model.norm.weight", cs!"x"),
      (cs!"model.layers.0.mlp.experts.gate_up_proj", cs!"g1noise 3 g2u1noise 3 u2"),
      (cs!"model.layers.0.mlp.experts.down_proj", cs!"d1scaled 4 noise 3 d2"),
      (cs!"model.layers.0.mlp.gate.weight", cs!"r")] :=
  ⟨packer_two (by decide) _ _, packer_one (by decide) (by decide) _ _, by decide +kernel⟩

/-- The hypotheses of `C57_qwen3` are met. -/
example : (∀ layer, PacksExperts qwen3Packers layer [cs!".gate_proj.weight", cs!".up_proj.weight"] cs!"experts.gate_up_proj" packed) ∧
    (∀ layer, PacksExperts qwen3Packers layer [cs!".down_proj.weight"] cs!"experts.down_proj" packed) ∧
    writeQwen3 textOps shortDisk plainTwo someWeights qwen3Packers 1 [cs!"r"] = .ok [
      (cs!"model.norm.weight", cs!"x"),
      (cs!"model.layers.0.mlp.experts.gate_up_proj", cs!"g1noise 3 g2u1noise 3 u2"),
      (cs!"model.layers.0.mlp.experts.down_proj", cs!"d1scaled 4 noise 3 d2"),
      (cs!"model.layers.0.mlp.gate.weight", cs!"r")] :=
  ⟨packer_two (by decide) _ _, packer_one (by decide) (by decide) _ _, by decide +kernel⟩

/-! ### Routers and configurations -/

/-- Vectors as texts, two layers. -/
def textGates : Gates Str where
  probe _ p := [cs!"0" ++ p.flatten, cs!"1" ++ p.flatten]
  sub a b := a ++ cs!"-" ++ b
  unit a := cs!"|" ++ a ++ cs!"|"
  random l i := Nat.toDigits 10 l ++ cs!"," ++ Nat.toDigits 10 i

/-- The hypotheses of `C57_router_rows` are met. -/
example : (∀ p, (textGates.probe twoExperts.gateMode p).length = 2) ∧ routersOf textGates twoExperts 2 =
    .ok [([cs!"|0a|", cs!"|0b-0c|"], []), ([cs!"|1a|", cs!"|1b-1c|"], [])] := ⟨fun _ => rfl, by decide⟩

/-- With random rows the shared expert gets one, too. -/
example : routersOf textGates { twoExperts with gateMode := cs!"random" } 1 = .ok [([cs!"0,0", cs!"0,1"], [cs!"0,2"])] := by decide

/-- Configurations that are refused and accepted; the latter meets the hypotheses of `C58_accepted_routers`. -/
example : isBad plainTwo false = false ∧ isBad { plainTwo with expertsPerToken := 3 } false = true ∧
    isBad { plainTwo with experts := [{ source := 1, positive := some [cs!"a"] }, { source := 1, positive := some [cs!"b"] }] } false = true ∧
    isBad { plainTwo with experts := [{ source := 1, positive := some [cs!"a"] }, { source := 1, positive := some [cs!"b"] }] } true = false ∧
    IsProbe plainTwo.gateMode := by unfold IsProbe; decide

/-- A mode that is neither. -/
example : ¬ IsRandom cs!"hiden" ∧ ¬ IsProbe cs!"hiden" := by unfold IsRandom IsProbe; decide

/-- The hypotheses of `C58_uniform_random` are met. -/
example : isBad { plainTwo with gateMode := cs!"uniform_random", experts := [{ source := 1 }, { source := 2 }] } false = true ∧
    isBad { plainTwo with gateMode := cs!"random", experts := [{ source := 1 }, { source := 2 }] } false = false := by decide

/-- Choices. -/
example : selectArch plainTwo (fun _ => cs!"mistral") = some .mixtral ∧ selectArch plainTwo (fun _ => cs!"qwen3") = some .qwen3 ∧
    selectArch plainTwo (fun _ => cs!"qwen2") = none ∧ selectArch { plainTwo with architecture := some cs!"deep" } (fun _ => cs!"llama") = some .deepseek ∧
    selectArch twoExperts (fun _ => cs!"llama") = some .deepseek ∧ selectArch { twoExperts with gateMode := cs!"random" } (fun _ => cs!"qwen2") = some .qwen := by
  decide

end Verif.Moe
