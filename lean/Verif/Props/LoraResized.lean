import Verif.Props.LoraWhole

/-! # C129: adapters of models with another vocabulary -/

namespace Verif.Lora

open Verif.ModelRef (Str)

section
variable {T : Type} [Sub T] {arch : Str → Option Bool} {base base' model : Str → Option T} {decomp : Bool → T → T × T} {rows : T → Nat} {o : Opts} {ms : List Module}
  {a : Saved T} {plus : T → T → T} {product : Bool → Nat → Nat → T → T → T}

theorem weight_same {m : Module} (h : base' (m.name ++ cs!".weight") = base (m.name ++ cs!".weight")) : peftWeight plus product base' a m = peftWeight plus product base a m := by
  unfold peftWeight
  rw [h]

theorem weight_whole_any (hr : Ran arch base model decomp rows o ms a) {m : Module} (hm : m ∈ ms) (hw : Whole o m) {w : T} (hf : model (m.name ++ cs!".weight") = some w) :
    peftWeight plus product base' a m = .ok (some w) := by
  unfold peftWeight
  rw [if_pos (replaced_whole hr hm hw), (hr.whole m hm hw).1 w hf]

theorem bias_whole_any (hr : Ran arch base model decomp rows o ms a) {m : Module} (hm : m ∈ ms) (hw : Whole o m) (ha : arch (m.name ++ cs!".bias") ≠ none) {b : T}
    (hf : model (m.name ++ cs!".bias") = some b) : peftBias base' a m = some b := by
  unfold peftBias
  rw [if_pos (replaced_whole hr hm hw), (hr.whole m hm hw).2 b ha hf]

theorem bias_other_any (hr : Ran arch base model decomp rows o ms a) {m : Module} (hm : m ∈ ms) (hw : ¬ Whole o m) : peftBias base' a m = base' (m.name ++ cs!".bias") := by
  unfold peftBias
  rw [(hr.noWhole m hm hw).2]
  split <;> rfl

theorem weight_nothing_any (hr : Ran arch base model decomp rows o ms a) (hap : Apart o ms) (hpos : ∀ n, peftValue a.config.rankPattern a.config.r n ≠ 0) {m : Module} (hm : m ∈ ms)
    (h1 : ¬ Whole o m) (h2 : ¬ Split o m) : peftWeight plus product base' a m = .ok (base' (m.name ++ cs!".weight")) := by
  unfold peftWeight
  rw [(hr.noWhole m hm h1).1]
  split
  · rfl
  · split
    · rename_i ht
      rw [if_neg, if_neg (hpos _)]
      · have hA : a.tensors.lookup (key m.name (if decide (m.kind = .embedding) then cs!".lora_embedding_A" else cs!".lora_A.weight")) = none := by
          apply hr.nothing m hm h1 h2
          split <;> simp [endings]
        simp only [hA]
      · intro hk
        obtain ⟨t, ht, hs⟩ := targeted_iff.1 ht
        obtain ⟨m', hm', hw', rfl⟩ := (hr.targets _).1 ht
        exact hap.kinds m hm m' hm' h1 hk hw' (lastPart_of_suffix (lastPart_dot _) hs)
    · rfl

end

/-- An embedding, of inputs or outputs. -/
def Embeds (m : Module) : Prop := m.isEmbed = true ∨ m.kind = .embedding

/-- The options but for adapters of embeddings. -/
def Opts.plain (o : Opts) : Opts := { o with embedLora := false }

theorem vocabOpts_differ {b f : Nat} (h : b ≠ f) (o : Opts) : vocabOpts b f o = o.plain := by
  unfold vocabOpts Opts.plain
  by_cases he : o.embedLora = true
  · rw [if_pos ⟨h.symm, he⟩]
  · rw [if_neg (fun hc => he hc.2)]
    cases o
    simp_all

theorem split_not_embeds {o : Opts} {m : Module} (h : Split o.plain m) : ¬ Embeds m := fun he => h.1 (Or.inl ⟨h.2.1, rfl, he, h.2.2.2.2⟩)

variable {svd : ∀ m n, Matrix (Fin m) (Fin n) ℝ → Svd m n} {maxRank : Nat} {eps : ℝ} {distribute : Bool}
  {arch : Str → Option Bool} {base base' model : Str → Option Mat} {o : Opts} {ms : List Module} {a : Saved Mat}

/-- **C129** The vocabularies differ in size.  Then embeddings are never decomposed, whatever the options; and if the base model's embeddings are resized before the adapter is loaded,
in any way that leaves the other modules as they are, loading it gives the fine-tuned model's weight for every embedding that is not excluded, every other module that was to be saved or
decomposed (if the rank allowed is enough), and that of the model it is loaded on for the others. -/
theorem C129_resized {bv fv : Nat} (hv : bv ≠ fv) (hsvd : ∀ m n M, IsSvd M (svd m n M).u (svd m n M).s (svd m n M).vh)
    (hu : Uniform o.plain ms) (hnd : (ms.map (fun m => m.name)).Nodup) (hp : ∀ m ∈ ms, Plain m.name) (hap : Apart o.plain ms)
    (h : extractAny bv fv arch base model (decompMat svd maxRank eps distribute) Mat.rows o [] ms = .ok a)
    (hrank : ∀ m ∈ ms, ¬ Embeds m → Split o.plain m → ∃ (r c : Nat) (X Y : Matrix (Fin r) (Fin c) ℝ), base (m.name ++ cs!".weight") = some ⟨r, c, X⟩ ∧
      model (m.name ++ cs!".weight") = some ⟨r, c, Y⟩ ∧ RankEnough maxRank eps (singular svd (decide (m.kind = .embedding)) (Y - X)))
    (hhas : ∀ m ∈ ms, Whole o.plain m → model (m.name ++ cs!".weight") ≠ none)
    (hothers : ∀ m ∈ ms, ¬ Embeds m → base' (m.name ++ cs!".weight") = base (m.name ++ cs!".weight")) :
    ∃ out, peftLoad Mat.plus Mat.product base' a ms = .ok out ∧
      out.map Prod.fst = (ms.filter (fun m => m.hasWeight)).map (fun m => m.name) ∧
      ∀ m ∈ ms, m.hasWeight = true → ∃ w b, (m.name, w, b) ∈ out ∧
        (Embeds m → o.excluded m.name = false → w = model (m.name ++ cs!".weight")) ∧
        (Whole o.plain m ∨ Decomposed o m → w = model (m.name ++ cs!".weight")) ∧
        (¬ Whole o.plain m → ¬ Decomposed o m → w = base' (m.name ++ cs!".weight")) ∧
        (Whole o.plain m → arch (m.name ++ cs!".bias") ≠ none → model (m.name ++ cs!".bias") ≠ none → b = model (m.name ++ cs!".bias")) ∧
        (¬ Whole o.plain m → b = base' (m.name ++ cs!".bias")) := by
  unfold extractAny at h
  rw [vocabOpts_differ hv] at h
  have hr := ran hu hnd hp hap h
  have hpos := hr.positive (by
    intro m hm hw b f hb hf
    obtain ⟨r, c, X, Y, hb', hf', hre⟩ := hrank m hm (split_not_embeds hw) hw
    rw [hb] at hb'
    cases hb'
    rw [hf] at hf'
    cases hf'
    exact (decomp_restores hsvd _ hre distribute).1)
  have hweight : ∀ m ∈ ms, ∃ w, peftWeight Mat.plus Mat.product base' a m = .ok w ∧ (Whole o.plain m ∨ Decomposed o m → w = model (m.name ++ cs!".weight")) ∧
        (¬ Whole o.plain m → ¬ Decomposed o m → w = base' (m.name ++ cs!".weight")) := by
    intro m hm
    by_cases hw : Whole o.plain m
    · obtain ⟨w, hf⟩ := Option.ne_none_iff_exists'.1 (hhas m hm hw)
      exact ⟨_, weight_whole_any hr hm hw hf, fun _ => hf.symm, fun hn => absurd hw hn⟩
    · by_cases hd : Decomposed o m
      · have hsp : Split o.plain m := ⟨hw, hd⟩
        obtain ⟨r, c, X, Y, hb, hf, hre⟩ := hrank m hm (split_not_embeds hsp) hsp
        obtain ⟨h1, h2⟩ := decomp_restores hsvd _ hre distribute
        have := weight_split (plus := Mat.plus) (product := Mat.product) hr hap hm hsp hb hf
        rw [if_neg h1, h2] at this
        exact ⟨_, (weight_same (hothers m hm (split_not_embeds hsp))).trans this, fun _ => hf.symm, fun _ hn => absurd hd hn⟩
      · exact ⟨_, weight_nothing_any hr hap hpos hm hw (fun hs => hd hs.2), fun hn => (hn.elim hw hd).elim, fun _ _ => rfl⟩
  obtain ⟨out, h1, h2, h3⟩ := load_all (ms := ms) (fun m hm _ => (hweight m hm).imp (fun _ h => h.1))
  refine ⟨out, h1, h2, ?_⟩
  intro m hm hmw
  obtain ⟨w, hw1, hw2, hw3⟩ := hweight m hm
  refine ⟨w, _, h3 m hm hmw w hw1, fun he hx => hw2 (Or.inl (Or.inl ⟨hmw, rfl, he, hx⟩)), hw2, hw3, ?_, bias_other_any hr hm⟩
  intro hw ha hn
  obtain ⟨b, hf⟩ := Option.ne_none_iff_exists'.1 hn
  rw [bias_whole_any hr hm hw ha hf, hf]

/-- **C129** With vocabularies of one size nothing is changed. -/
theorem C129_one_size (n : Nat) {decomp : Bool → Mat → Mat × Mat} {rows : Mat → Nat} (given : List Str) :
    extractAny n n arch base model decomp rows o given ms = extract arch base model decomp rows o given ms := by
  unfold extractAny vocabOpts
  rw [if_neg (fun h => h.1 rfl)]

/-! ## The hypotheses can be met -/

/-- `small`, where the fine-tuned model has a third token. -/
noncomputable def grown (n : Str) : Option Mat :=
  if n = cs!"model.embed.weight" ∨ n = cs!"head.weight" then some ⟨3, 2, Matrix.of (fun _ _ => 7)⟩ else some ⟨2, 2, Matrix.of (fun _ _ => 1)⟩

/-- The base model after `resize_token_embeddings(3)`. -/
noncomputable def resized (n : Str) : Option Mat := if n = cs!"model.embed.weight" ∨ n = cs!"head.weight" then some ⟨3, 2, 0⟩ else some ⟨2, 2, 0⟩

/-- Asked for adapters of embeddings. -/
def embedding : Opts := { defaults with embedLora := true }

example : ∃ svd : ∀ m n, Matrix (Fin m) (Fin n) ℝ → Svd m n, ∃ a out, extractAny 2 3 (fun _ => none) (fun _ => some ⟨2, 2, 0⟩) grown
    (decompMat svd 1 0 false) Mat.rows embedding [] small = .ok a ∧ peftLoad Mat.plus Mat.product resized a small = .ok out ∧
    ∃ b, (cs!"model.embed", some (Mat.mk 3 2 (Matrix.of (fun _ _ => 7))), b) ∈ out := by
  obtain ⟨svd, hsvd⟩ := svd_exists
  obtain ⟨a, ha⟩ : ∃ a, extractAny 2 3 (fun _ => none) (fun _ => some ⟨2, 2, 0⟩) grown (decompMat svd 1 0 false) Mat.rows embedding [] small = .ok a := ⟨_, rfl⟩
  have hone : ∃ (b : Matrix (Fin 2) (Fin 1) ℝ) (a : Matrix (Fin 1) (Fin 2) ℝ), (Matrix.of (fun _ _ => 1) : Matrix (Fin 2) (Fin 2) ℝ) - 0 = b * a := by
    refine ⟨Matrix.of (fun _ _ => 1), Matrix.of (fun _ _ => 1), ?_⟩
    ext i j
    simp [Matrix.mul_apply]
  have hplain : embedding.plain = defaults := rfl
  obtain ⟨out, h1, _, h3⟩ := C129_resized (o := embedding) (base' := resized) (show (2 : Nat) ≠ 3 by decide) hsvd (by rw [hplain]; unfold Uniform; decide +kernel) (by decide)
    (by unfold Plain; decide +kernel) small_apart ha
    (by
      intro m hm hne hw
      clear hne
      have : m = ⟨cs!"model.0.q", .linear, true, false⟩ ∨ m = ⟨cs!"model.1.q", .linear, true, false⟩ := by
        rw [hplain] at hw
        revert m
        decide +kernel
      rcases this with rfl | rfl
      · exact ⟨2, 2, 0, Matrix.of (fun _ _ => 1), rfl, rfl, C129_low_rank hsvd le_rfl one_pos (by decide) (by decide) hone _⟩
      · exact ⟨2, 2, 0, Matrix.of (fun _ _ => 1), rfl, rfl, C129_low_rank hsvd le_rfl one_pos (by decide) (by decide) hone _⟩)
    (by
      intro m _ _ hn
      unfold grown at hn
      split at hn <;> cases hn)
    (by
      intro m hm he
      have hne : ¬ (m.name ++ cs!".weight" = cs!"model.embed.weight" ∨ m.name ++ cs!".weight" = cs!"head.weight") := by
        unfold Embeds at he
        revert m
        decide +kernel
      unfold resized
      rw [if_neg hne])
  obtain ⟨w, b, hin, hw, _⟩ := h3 ⟨cs!"model.embed", .embedding, true, true⟩ (by decide +kernel) rfl
  refine ⟨svd, a, out, ha, h1, b, ?_⟩
  rw [hw (Or.inl rfl) rfl] at hin
  exact hin

end Verif.Lora
