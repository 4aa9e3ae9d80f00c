import Mathlib.Tactic.IntervalCases
import Verif.Props.WholeSample
import Verif.Props.TaskArith
import Verif.Props.Sparsify
import Verif.Model.WholeTask

/-! # C110: task arithmetic, TIES, DARE, breadcrumbs and DELLA from the configuration to the files -/

set_option linter.unusedSectionVars false

namespace Verif.WholeMerge

open Verif.ModelRef (Str Ref)
open Verif.LoadTask (LoadTensor WeightInfo Casts Loader ownTensors typeNames wanted)
open Verif.Plan
open Verif.Config
open Verif.Tensor (Tensor)
open Verif.Pipeline
open Verif.Merge (Aligned diff Elected agreeing)
open Verif.Sparsify (Keeps Factor SortsAsc SortsDesc)

section
variable {K : Type} [Field K] [LinearOrder K] [IsStrictOrderedRing K] [FloorRing K]

/-! ## Specification -/

/-- What a configuration says about a key for an output tensor at a depth: of the slice, of the module or of the whole configuration. -/
def Says (c : MergeConfig K) (d : OutModule K) (s : OutSlice K) (name : Str) (t : K) (key : String) (v : Option (Scalar K)) : Prop :=
  Reads name t [s.parameters.get key.toList, d.parameters.get key.toList, c.parameters.get key.toList] v

/-- What it says about a key for a source. -/
def SaysOf (c : MergeConfig K) (d : OutModule K) (s : OutSlice K) (src : InSlice K) (name : Str) (t : K) (key : String)
    (v : Option (Scalar K)) : Prop :=
  Reads name t [src.parameters.get key.toList, s.parameters.get key.toList, d.parameters.get key.toList, c.parameters.get key.toList] v

/-- True and false as values. -/
def yes (b : Bool) : Scalar K := .num (if b then 1 else 0)

/-- The numbers of a source. -/
structure Numbers (K : Type) where
  weight : K
  density : K
  gamma : K
  epsilon : K

/-- A configuration gives these numbers: the weight must be said, the density is 1 unless said otherwise, `gamma` (breadcrumbs) 0.01 and
`epsilon` (DELLA) 0.15. -/
structure NumbersAre (kind : Option Sparsify.Method) (c : MergeConfig K) (d : OutModule K) (s : OutSlice K) (src : InSlice K) (name : Str)
    (t : K) (n : Numbers K) : Prop where
  weight : SaysOf c d s src name t "weight" (some (.num n.weight))
  density : ∃ v, SaysOf c d s src name t "density" v ∧ v.getD (.num 1) = .num n.density
  gamma : kind = some .magnitudeOutliers → ∃ v, SaysOf c d s src name t "gamma" v ∧ v.getD (.num (1 / 100)) = .num n.gamma
  epsilon : kind = some .dellaMagprune → ∃ v, SaysOf c d s src name t "epsilon" v ∧ v.getD (.num (15 / 100)) = .num n.epsilon

/-- And these for all models together: normalize and rescale as the method has them unless said otherwise, lambda 1. -/
structure TogetherAre (g : GtaVariant) (c : MergeConfig K) (d : OutModule K) (s : OutSlice K) (name : Str) (t : K)
    (normalize rescale : Bool) (lam : K) : Prop where
  mask : ∃ v b, Says c d s name t "int8_mask" v ∧ v.getD (yes false) = yes b
  normalize : ∃ v, Says c d s name t "normalize" v ∧ v.getD (yes g.normalize) = yes normalize
  rescale : ∃ v, Says c d s name t "rescale" v ∧ v.getD (yes g.rescale) = yes rescale
  lam : ∃ v, Says c d s name t "lambda" v ∧ v.getD (.num 1) = .num lam

/-- A change `d` after the sparsification of a method. -/
inductive Trimmed (sample : (Nat → K) → Nat → Bool) (n : Numbers K) (rescale : Bool) (d d' : Tensor K) : Option Sparsify.Method → Prop
  | plain : d' = d → Trimmed sample n rescale d d' none
  | dense (k : Sparsify.Method) : 1 ≤ n.density → d' = d → Trimmed sample n rescale d d' (some k)
  /-- the largest entries are kept -/
  | largest (kept : List Nat) (c : K) : n.density < 1 → Factor (if rescale then some .l1 else none) d d' c → Keeps d d' c kept → kept.Nodup →
      (kept.length : Int) = ⌊n.density * (d.shape.prod : K)⌋ → (∀ i ∈ kept, i < d.shape.prod) →
      (∀ i ∈ kept, ∀ j, j < d.shape.prod → j ∉ kept → |d.get j| ≤ |d.get i|) → Trimmed sample n rescale d d' (some .magnitude)
  /-- each is kept with the density as probability -/
  | random (c : K) : n.density < 1 → Factor (if rescale then some .l1 else none) d d' c → d'.shape = d.shape →
      (∀ i, d'.get i = if sample (fun _ => n.density) i then c * d.get i else 0) → Trimmed sample n rescale d d' (some .random)
  /-- the middle ones are kept -/
  | middle (small kept big : List Nat) (c : K) : n.density < 1 → Factor (if rescale then some .l1 else none) d d' c → Keeps d d' c kept →
      (small ++ kept ++ big).Perm (List.range d.shape.prod) → (kept.length : Int) = ⌊n.density * (d.shape.prod : K)⌋ →
      (big.length : Int) = min ⌊n.gamma * (d.shape.prod : K)⌋ (d.shape.prod - ⌊n.density * (d.shape.prod : K)⌋) →
      (∀ i ∈ small, ∀ j ∈ kept, |d.get i| ≤ |d.get j|) → (∀ j ∈ kept, ∀ k ∈ big, |d.get j| ≤ |d.get k|) →
      Trimmed sample n rescale d d' (some .magnitudeOutliers)
  /-- larger ones of a row are kept with larger probability -/
  | ranked (probs : Nat → K) (c : K) (b s : Nat) : n.density < 1 → Factor (if rescale then some .l1 else none) d d' c → d'.shape = d.shape →
      ((d.shape = [b] ∧ s = 1) ∨ ∃ a rest, d.shape = a :: b :: rest ∧ s = rest.prod) →
      (∀ x z, z < s →
        let at' := fun j => (x * b + j) * s + z
        (∀ j < b, n.density - n.epsilon ≤ probs (at' j) ∧ probs (at' j) ≤ n.density + n.epsilon) ∧
        (∀ j < b, ∀ j' < b, |d.get (at' j)| < |d.get (at' j')| → probs (at' j) ≤ probs (at' j')) ∧
        ((List.range b).map (fun j => probs (at' j))).sum = b * n.density) →
      (∀ i, d'.get i = if sample probs i then c * d.get i else 0) → Trimmed sample n rescale d d' (some .dellaMagprune)

/-- The numbers allow the sparsification of a tensor of that shape. -/
inductive Doable (shape : List Nat) (n : Numbers K) : Option Sparsify.Method → Prop
  | plain : Doable shape n none
  | dense (k : Sparsify.Method) : 1 ≤ n.density → Doable shape n (some k)
  | largest : n.density < 1 → 1 ≤ n.density * (shape.prod : K) → Doable shape n (some .magnitude)
  | random : 0 ≤ n.density → n.density < 1 → Doable shape n (some .random)
  | middle : 0 ≤ n.density → n.density < 1 → 1 ≤ n.gamma * (shape.prod : K) → Doable shape n (some .magnitudeOutliers)
  | ranked (b s : Nat) : ((shape = [b] ∧ s = 1) ∨ ∃ a rest, shape = a :: b :: rest ∧ s = rest.prod) → 2 ≤ b → 0 ≤ n.epsilon →
      n.density + n.epsilon < 1 → 0 < n.density - n.epsilon → Doable shape n (some .dellaMagprune)

/-- The change at an entry from the weights and changes of the models: their weighted sum (divided by the sum of the weights when normalizing,
unless it is negligible); with sign consensus only of those whose weighted change has the elected sign. -/
inductive Combined (normalize : Bool) (lam : K) (es : List (K × K)) : Option Merge.Consensus → K → Prop
  | all : Combined normalize lam es none (lam * (es.map (fun e => e.1 * e.2)).sum /
      (if normalize = true ∧ ¬ |(es.map Prod.fst).sum| < 1 / 100000000 then (es.map Prod.fst).sum else 1))
  | agreeing (method : Merge.Consensus) (s : K) : Elected es method s → Combined normalize lam es (some method)
      (lam * ((agreeing s es).map (fun e => e.1 * e.2)).sum /
        (if normalize = true ∧ ((agreeing s es).map Prod.fst).sum ≠ 0 then ((agreeing s es).map Prod.fst).sum else 1))

/-- What is right for a place: the base model's own tensor plus the combined changes of the other models, each sparsified with its own numbers.
Models whose tensor has another shape than the base's take no part, unless it is an embedding, which is cut. -/
def Arithmetic (g : GtaVariant) (sample : Str → Ref → (Nat → K) → Nat → Bool) (c : MergeConfig K) (s : Setup K (Tensor K) MethodErr)
    (own : Ref → WeightInfo → Tensor K) (e : String × OutModule K)
    (w : WeightInfo) (sl : OutSlice K) (t : K) (ins : List (Ref × WeightInfo)) (z : Tensor K) : Prop :=
  ∃ y b wb normalize rescale lam, Stored s w y z ∧ BaseIs c sl b ∧ (b, wb) ∈ ins ∧
    TogetherAre g c e.2 sl w.name t normalize rescale lam ∧ y.shape = (own b wb).shape ∧
    ∃ parts : List (K × Tensor K),
      List.Forall₂ (fun (i : Ref × WeightInfo) (x : K × Tensor K) => ∃ src ∈ sl.sources, src.model = i.1 ∧
        ∃ n, NumbersAre g.sparsification c e.2 sl src i.2.name t n ∧ x.1 = n.weight ∧
          ∃ a, Aligned w.isEmbed (own b wb) (own i.1 i.2) a ∧
            Trimmed (sample w.name i.1) n rescale (diff a (own b wb)) x.2 g.sparsification)
        (ins.filter (fun i => decide (i.1 ≠ b ∧ (w.isEmbed = true ∨ (own i.1 i.2).shape = (own b wb).shape)))) parts ∧
      ∀ k, ∃ delta, Combined normalize lam (parts.map (fun x => (x.1, x.2.get k))) g.consensus delta ∧
        y.get k = (own b wb).get k + delta

/-! ## Lemmas -/

/-- Sparsifying works if the numbers allow it, and does what it should. -/
theorem trim_ok (tools : Tools K) (hdesc : ∀ w n, SortsDesc w n (tools.sortDesc w n)) (hasc : ∀ w n, SortsAsc w n (tools.sortAsc w n))
    (name : Str) (m : Ref) (n : Numbers K) (rescale : Bool) (kind : Sparsify.Method) (d : Tensor K) (h : Doable d.shape n (some kind))
    (gamma epsilon : K) (hg : kind = .magnitudeOutliers → gamma = n.gamma) (he : kind = .dellaMagprune → epsilon = n.epsilon) :
    ∃ d', Sparsify.sparsify tools.sqrt tools.sortDesc tools.sortAsc (tools.sample name m) d n.density kind gamma epsilon
        (if rescale then some .l1 else none) = .ok d' ∧ Trimmed (tools.sample name m) n rescale d d' (some kind) := by
  cases h with
  | dense _ hd =>
    refine ⟨d, ?_, .dense _ hd rfl⟩
    cases kind with
    | magnitude => simp [Sparsify.sparsify, Sparsify.magnitude, hd]
    | random => simp [Sparsify.sparsify, Sparsify.bernoulli, hd]
    | magnitudeOutliers => simp [Sparsify.sparsify, Sparsify.magnitudeOutliers, hd]
    | dellaMagprune => simp [Sparsify.sparsify, Sparsify.della, hd]
  | largest hd hk =>
    obtain ⟨r, kept, c, h1, h2, h4, h5, h6, h7, h8⟩ := Sparsify.C37_sparsify tools.sqrt tools.sortDesc tools.sortAsc (tools.sample name m)
      hdesc d n.density gamma epsilon (if rescale then some .l1 else none) hd hk
    exact ⟨r, h1, .largest kept c hd h2 h4 h5 h6 h7 h8⟩
  | random h0 hd =>
    obtain ⟨r, c, h1, h2, h4, h5⟩ := (Sparsify.C72_random tools.sqrt tools.sortDesc tools.sortAsc (tools.sample name m) d n.density gamma
      epsilon (if rescale then some .l1 else none)).1 h0 hd
    exact ⟨r, h1, .random c hd h2 h4 h5⟩
  | middle h0 hd hg' =>
    rw [hg rfl]
    obtain ⟨r, small, kept, big, c, h1, h2, h4, h5, h6, h7, h8, h9⟩ := Sparsify.C38_sparsify_partial tools.sqrt tools.sortDesc
      tools.sortAsc (tools.sample name m) hasc d n.density n.gamma epsilon (if rescale then some .l1 else none) h0 hd hg'
    exact ⟨r, h1, .middle small kept big c hd h2 h4 h5 h6 h7 h8 h9⟩
  | ranked b s hs hb h0 h1 h2 =>
    rw [he rfl]
    obtain ⟨probs, h3, h4⟩ := Sparsify.C40_sparsify_partial tools.sqrt tools.sortDesc
      tools.sortAsc (tools.sample name m) hasc d n.density gamma n.epsilon (if rescale then some .l1 else none) b s hs hb h0 h1 h2
    obtain ⟨c, h5, h7, h8⟩ := Sparsify.rescaled_scale tools.sqrt d (tools.sample name m probs) (if rescale then some .l1 else none)
    exact ⟨_, h3, .ranked probs c b s (by linarith) h5 h7 hs h4 h8⟩

omit [IsStrictOrderedRing K] [FloorRing K] in
theorem sparsifyAll_congr {M : Type} (sp sp' : M → Tensor K → Except Tensor.Err (Tensor K)) (ds : List (M × Tensor K))
    (h : ∀ e ∈ ds, sp e.1 e.2 = sp' e.1 e.2) : Merge.sparsifyAll sp ds = Merge.sparsifyAll sp' ds := by
  induction ds with
  | nil => rfl
  | cons e ds ih =>
    obtain ⟨m, d⟩ := e
    simp only [Merge.sparsifyAll]
    rw [h (m, d) (by simp), ih (fun e he => h e (by simp [he]))]

theorem mix_combined (consensus : Option Merge.Consensus) (normalize : Bool) (lam : K) (es : List (K × K)) :
    Combined normalize lam es consensus (Merge.mix consensus normalize lam es) := by
  cases consensus with
  | none =>
    rw [Merge.mix_none]
    exact .all
  | some method =>
    obtain ⟨s, _, h1, h2⟩ := Merge.mix_some method normalize lam es
    rw [h2]
    exact .agreeing method s h1

/-- `gta` with a sparsification that works on the changes of the models taking part. -/
theorem gta_works {M : Type} [DecidableEq M] (consensus : Option Merge.Consensus) (isEmbed normalize : Bool) (lam : K) (weight : M → K)
    (sp : M → Tensor K → Except Tensor.Err (Tensor K)) (b : M) (base : Tensor K) (tensors : List (M × Tensor K))
    (hfit : Merge.Fits isEmbed b base tensors)
    (hsp : ∀ e ∈ Merge.participants isEmbed b base tensors, ∀ d : Tensor K, d.shape = base.shape → ∃ d', sp e.1 d = .ok d') :
    ∃ (parts : List (Tensor K)) (r : Tensor K),
      List.Forall₂ (fun (e : M × Tensor K) x => ∃ a, Aligned isEmbed base e.2 a ∧ sp e.1 (diff a base) = .ok x)
        (Merge.participants isEmbed b base tensors) parts ∧
      Merge.gta consensus isEmbed normalize lam weight sp b tensors = .ok r ∧ r.shape = base.shape ∧
      ∀ i, r.get i = base.get i + Merge.mix consensus normalize lam
        (((Merge.participants isEmbed b base tensors).zip parts).map (fun e => (weight e.1.1, e.2.get i))) := by
  classical
  let f : M → Tensor K → Tensor K := fun m d => match sp m d with
    | .ok x => x
    | .error _ => d
  obtain ⟨xs, r, h1, h2, h3, h4⟩ := Merge.gta_eq consensus isEmbed normalize lam weight f b base tensors hfit
  have hf : ∀ e ∈ Merge.participants isEmbed b base tensors, ∀ d : Tensor K, d.shape = base.shape → sp e.1 d = .ok (f e.1 d) := by
    intro e he d hd
    obtain ⟨d', h⟩ := hsp e he d hd
    simp only [f, h]
  have hgta : Merge.gta consensus isEmbed normalize lam weight sp b tensors =
      Merge.gta consensus isEmbed normalize lam weight (fun m d => .ok (f m d)) b tensors := by
    obtain ⟨ys, h5, h6⟩ := Merge.taskVectors_ok isEmbed b base tensors hfit.embed
    unfold Merge.gta
    rw [hfit.hasBase]
    simp only [h5]
    cases ys with
    | nil => rfl
    | cons y ys =>
      simp only [List.map_cons]
      rw [sparsifyAll_congr sp (fun m d => .ok (f m d))]
      intro e he
      rw [← List.map_cons (f := fun e : M × Tensor K => (e.1, diff e.2 base))] at he
      obtain ⟨y', hy', rfl⟩ := List.mem_map.1 he
      obtain ⟨e', he', h7, _⟩ := forall₂_mem_right h6 y' hy'
      simp only
      rw [h7]
      exact hf e' he' _ rfl
  refine ⟨xs.map (fun x => f x.1 (diff x.2 base)), r, ?_, hgta.trans h2, h3, ?_⟩
  · clear h4 h2
    rw [List.forall₂_map_right_iff]
    have : ∀ {l : List (M × Tensor K)} {xs}, (∀ e ∈ l, e ∈ Merge.participants isEmbed b base tensors) →
        List.Forall₂ (fun (e : M × Tensor K) (x : M × Tensor K) => x.1 = e.1 ∧ Aligned isEmbed base e.2 x.2) l xs →
        List.Forall₂ (fun (e : M × Tensor K) (x : M × Tensor K) => ∃ a, Aligned isEmbed base e.2 a ∧
          sp e.1 (diff a base) = .ok (f x.1 (diff x.2 base))) l xs := by
      intro l xs hl h
      induction h with
      | nil => exact .nil
      | cons hx _ ih =>
        refine .cons ⟨_, hx.2, ?_⟩ (ih (fun e he => hl e (by simp [he])))
        rw [hx.1]
        exact hf _ (hl _ (by simp)) _ rfl
    exact this (fun e he => he) h1
  · intro i
    rw [h4]
    congr 2
    clear h4 h2 hgta
    generalize Merge.participants isEmbed b base tensors = l at h1
    clear hf hsp
    induction h1 with
    | nil => rfl
    | cons hx _ ih =>
      simp only [List.map_cons, List.zip_cons_cons, List.cons.injEq]
      exact ⟨by rw [hx.1], ih⟩

/-- A method has no parameters for models but those it asks for. -/
theorem tensorParam_absent {env : Env K} {r : Reader K} {w : WeightInfo} {ins : List (Ref × WeightInfo)} {p : Planned K}
    (h : TensorPlan env r w ins (some p)) (hins : (ins.map Prod.fst).Nodup) (m : Ref) (key : Str) (hk : key ∉ env.tensorParams.map (·.name)) :
    (lookup p.tensorParams m).bind (fun x => lookup x key) = none := by
  cases h with
  | planned _ _ _ _ _ htensor =>
    obtain ⟨tp, htp, hf⟩ := htensor
    cases hl : lookup p.tensorParams m with
    | none => rfl
    | some d =>
      simp only [Option.bind_some]
      have hmem : ∃ k, (k, d) ∈ tp := by
        unfold lookup at hl
        rw [Option.map_eq_some_iff] at hl
        obtain ⟨e, he, rfl⟩ := hl
        have := List.mem_of_find?_eq_some he
        rw [htp, Verif.Plan.dictOf_nodup tp (by rw [forall₂_keys hf]; exact hins)] at this
        exact ⟨e.1, this⟩
      obtain ⟨k, hkd⟩ := hmem
      obtain ⟨i, hi, _, h2⟩ := forall₂_mem_right hf _ hkd
      simp only at h2
      unfold lookup
      rw [List.find?_eq_none.2, Option.map_none]
      intro e he
      obtain ⟨pd, hpd, h3, _⟩ := forall₂_mem_right h2 e he
      simp only [decide_eq_true_eq]
      intro hek
      exact hk (List.mem_map.2 ⟨pd, hpd, by rw [← h3, hek]⟩)

theorem says_parameter {c c' : MergeConfig K} {d : OutModule K} {s : OutSlice K} {name : Str} {t : K} {key : String}
    {v : Option (Scalar K)} (h : Says c d s name t key v) (hpar : c'.parameters = c.parameters) (default : Scalar K) :
    ((sliceReader c' d s t).forTensor name).parameter key.toList none (some default) false = .ok (some (v.getD default)) := by
  have hlev := levels_global c' d s t name key.toList
  rw [hpar] at hlev
  rw [reads_parameter (r := (sliceReader c' d s t).forTensor name) h rfl hlev (some default) false (Or.inr rfl)]
  cases v <;> rfl

theorem saysOf_parameter {c c' : MergeConfig K} {d : OutModule K} {s : OutSlice K} {src : InSlice K} {name : Str} {t : K} {key : String}
    {v : Option (Scalar K)} (h : SaysOf c d s src name t key v) (hpar : c'.parameters = c.parameters) (hsrc : src ∈ s.sources)
    (hn : (s.sources.map (·.model)).Nodup) (default : Option (Scalar K)) (required : Bool) (hv : v ≠ none ∨ required = false) :
    ((sliceReader c' d s t).forTensor name).parameter key.toList (some src.model) default required = .ok (v.or default) := by
  have hlev := levels_source c' d s t name key.toList src hsrc hn
  rw [hpar] at hlev
  exact reads_parameter (r := (sliceReader c' d s t).forTensor name) h rfl hlev default required hv

theorem mem_weight (g : GtaVariant) : (⟨"weight".toList, true, none⟩ : ParamDef K) ∈ (g.tensorParams : List (ParamDef K)) := by
  unfold GtaVariant.tensorParams
  exact List.mem_append_left _ (List.mem_append_left _ List.mem_cons_self)

theorem mem_density (g : GtaVariant) : (⟨"density".toList, false, some (.num 1)⟩ : ParamDef K) ∈ (g.tensorParams : List (ParamDef K)) := by
  unfold GtaVariant.tensorParams
  exact List.mem_append_left _ (List.mem_append_left _ (List.mem_cons_of_mem _ List.mem_cons_self))

theorem mem_gamma (g : GtaVariant) (h : g.sparsification = some .magnitudeOutliers) :
    (⟨"gamma".toList, false, some (.num (1 / 100))⟩ : ParamDef K) ∈ (g.tensorParams : List (ParamDef K)) := by
  unfold GtaVariant.tensorParams
  rw [if_pos h]
  exact List.mem_append_left _ (List.mem_append_right _ List.mem_cons_self)

theorem mem_epsilon (g : GtaVariant) (h : g.sparsification = some .dellaMagprune) :
    (⟨"epsilon".toList, false, some (.num (15 / 100))⟩ : ParamDef K) ∈ (g.tensorParams : List (ParamDef K)) := by
  unfold GtaVariant.tensorParams
  rw [if_pos h]
  exact List.mem_append_right _ List.mem_cons_self

theorem no_gamma (g : GtaVariant) (h : g.sparsification ≠ some .magnitudeOutliers) :
    "gamma".toList ∉ (g.tensorParams : List (ParamDef K)).map (·.name) := by
  unfold GtaVariant.tensorParams
  rw [if_neg h]
  split <;> simp only [List.map_append, List.map_cons, List.map_nil] <;> decide

theorem no_epsilon (g : GtaVariant) (h : g.sparsification ≠ some .dellaMagprune) :
    "epsilon".toList ∉ (g.tensorParams : List (ParamDef K)).map (·.name) := by
  unfold GtaVariant.tensorParams
  rw [if_neg h]
  split <;> simp only [List.map_append, List.map_cons, List.map_nil] <;> decide

theorem tensorParams_nodup (g : GtaVariant) : ((g.tensorParams : List (ParamDef K)).map (·.name)).Nodup := by
  unfold GtaVariant.tensorParams
  split <;> split <;> simp only [List.map_append, List.map_cons, List.map_nil] <;> decide

/-! ## The theorem -/

/-- All that is needed for a place: the models' tensors are there; the type to store exists; the base model is among the inputs and embeddings of
other models are not smaller than its own; the numbers are given, and allow the sparsification of the tensors taking part; and what is said about
the base model, though not used, can be read. -/
structure Workable (g : GtaVariant) (c : MergeConfig K) (s : Setup K (Tensor K) MethodErr) (own : Ref → WeightInfo → Tensor K)
    (d : OutModule K) (w : WeightInfo) (sl : OutSlice K) (t : K) (ins : List (Ref × WeightInfo)) : Prop where
  loads : ∀ i ∈ ins, (wanted s.dtype i.2).execute s.casts (s.loaders i.1) = .ok (some (own i.1 i.2))
  type : storedType s.outDtype w = none ∨ ∃ n d, storedType s.outDtype w = some n ∧ (n, d) ∈ typeNames
  base : ∃ b wb, BaseIs c sl b ∧ (b, wb) ∈ ins ∧
    (w.isEmbed = true → ∀ i ∈ ins, i.1 ≠ b → (own i.1 i.2).shape = (own b wb).shape ∨
      ∃ r c r' c', (own b wb).shape = [r, c] ∧ (own i.1 i.2).shape = [r', c'] ∧ r ≤ r' ∧ c ≤ c') ∧
    (∀ i ∈ ins, i.1 ≠ b → ∀ src ∈ sl.sources, src.model = i.1 → ∃ n, NumbersAre g.sparsification c d sl src i.2.name t n ∧
      (w.isEmbed = true ∨ (own i.1 i.2).shape = (own b wb).shape → Doable (own b wb).shape n g.sparsification)) ∧
    ∀ src ∈ sl.sources, src.model = b → ∀ key ∈ ["weight", "density", "gamma", "epsilon"], ∃ v, SaysOf c d sl src wb.name t key v
  together : ∃ normalize rescale lam, TogetherAre g c d sl w.name t normalize rescale lam

set_option maxHeartbeats 1600000 in
/-- **C110** Task arithmetic and its relatives, from the configuration to the files.  `g` is any of the registered variants (or any other
combination of consensus, sparsification and defaults).  If every place that is not left out is workable, then - whatever order the executor
chooses, whatever random bits are drawn, with or without writer threads, for any shard size and either format - planning succeeds and the
merge ends without an exception; the output lists exactly the names of the places not left out; and what is read for a place is (in
the type asked for) the base model's tensor plus the combined changes of the other models, each sparsified with the numbers the configuration
gives it there. -/
theorem C110_task_arithmetic (g : GtaVariant) (tools : Tools K) (hdesc : ∀ w n, SortsDesc w n (tools.sortDesc w n))
    (hasc : ∀ w n, SortsAsc w n (tools.sortAsc w n))
    (env : Env K) (hparams : env.params = g.params) (htparams : env.tensorParams = g.tensorParams)
    (c : MergeConfig K) (l : List (String × OutModule K)) (hl : Sections env c l) (hu : Usable env l)
    (s : Setup K (Tensor K) MethodErr) (hmeth : s.method = gtaMethod g tools) (own : Ref → WeightInfo → Tensor K)
    (hown : ∀ e ∈ l, ∀ w sl t ins, Place env e.1 (e.2.slices.getD []) w sl t ins → ¬ LeftOut env w ins →
      Workable g c s own e.2 w sl t ins) :
    Delivers env c l s (Arithmetic g tools.sample c s own) := by
  refine usable_delivers env c l hl hu s _ ?_
  intro c' hb hpar e he w sl t ins hpl hno hnd
  obtain ⟨hsl, hms⟩ := hpl.models
  obtain ⟨hloads, htype, ⟨b, wb, hbi, hbin, hemb, hnum, hbr⟩, ⟨nrm, res, lam, htog⟩⟩ := hown e he w sl t ins hpl hno
  have hrb := base_reader (d := e.2) (t := t) hb hbi
  have hsn : (sl.sources.map (·.model)).Nodup := by rw [← hms]; exact hnd
  have hsrcOf : ∀ i ∈ ins, ∃ src ∈ sl.sources, src.model = i.1 := by
    intro i hi
    have : i.1 ∈ sl.sources.map (·.model) := by rw [← hms]; exact List.mem_map.2 ⟨i, hi, rfl⟩
    obtain ⟨src, h1, h2⟩ := List.mem_map.1 this
    exact ⟨src, h1, h2⟩
  have honly : ∀ i ∈ ins, i.1 = b → i = (b, wb) := fun i hi h =>
    List.inj_on_of_nodup_map hnd hi hbin (by simpa using h)
  obtain ⟨⟨v1, b1, hv1, e1⟩, ⟨v2, hv2, e2⟩, ⟨v3, hv3, e3⟩, ⟨v4, hv4, e4⟩⟩ := htog
  have r1 := says_parameter hv1 hpar (flag false)
  have r2 := says_parameter hv2 hpar (flag g.normalize)
  have r3 := says_parameter hv3 hpar (flag g.rescale)
  have r4 := says_parameter hv4 hpar (.num 1)
  -- what can be read for a model
  have hread : ∀ i ∈ ins, ∀ d ∈ (g.tensorParams : List (ParamDef K)), ∃ v, ((sliceReader c' e.2 sl t).forTensor i.2.name).parameter d.name
      (some i.1) d.default (d.required && !decide (some i.1 = (sliceReader c' e.2 sl t).baseModel)) = .ok v := by
    intro i hi d hd
    obtain ⟨src, hsrc, hm⟩ := hsrcOf i hi
    rw [hrb]
    by_cases hib : i.1 = b
    · have hii := honly i hi hib
      subst hii
      have key : ∀ key ∈ ["weight", "density", "gamma", "epsilon"], ∀ default : Option (Scalar K), ∀ req : Bool, ∃ v,
          ((sliceReader c' e.2 sl t).forTensor wb.name).parameter key.toList (some b) default
            (req && !decide ((some b : Option Ref) = some b)) = .ok v := by
        intro key hkey default req
        obtain ⟨v, hv⟩ := hbr src hsrc hm key hkey
        have := saysOf_parameter hv hpar hsrc hsn default (req && !decide ((some b : Option Ref) = some b)) (Or.inr (by simp))
        simp only at hm
        rw [hm] at this
        exact ⟨_, this⟩
      unfold GtaVariant.tensorParams at hd
      simp only [List.mem_append, List.mem_cons, List.not_mem_nil, or_false] at hd
      rcases hd with ((rfl | rfl) | hd) | hd
      · exact key "weight" (by simp) _ _
      · exact key "density" (by simp) _ _
      · split at hd
        · rw [List.mem_singleton] at hd
          subst hd
          exact key "gamma" (by simp) _ _
        · cases hd
      · split at hd
        · rw [List.mem_singleton] at hd
          subst hd
          exact key "epsilon" (by simp) _ _
        · cases hd
    · obtain ⟨n, hn, _⟩ := hnum i hi hib src hsrc hm
      have key : ∀ (key : String) (v : Option (Scalar K)), SaysOf c e.2 sl src i.2.name t key v → ∀ default : Option (Scalar K), ∀ req : Bool,
          (v ≠ none ∨ req = false) → ∃ v', ((sliceReader c' e.2 sl t).forTensor i.2.name).parameter key.toList (some i.1) default
            (req && !decide ((some i.1 : Option Ref) = some b)) = .ok v' := by
        intro key v hv default req hor
        have := saysOf_parameter hv hpar hsrc hsn default (req && !decide ((some i.1 : Option Ref) = some b))
          (hor.imp id (fun h => by rw [h]; rfl))
        rw [hm] at this
        exact ⟨_, this⟩
      unfold GtaVariant.tensorParams at hd
      simp only [List.mem_append, List.mem_cons, List.not_mem_nil, or_false] at hd
      rcases hd with ((rfl | rfl) | hd) | hd
      · exact key "weight" _ hn.weight _ _ (Or.inl (by simp))
      · obtain ⟨v, hv, _⟩ := hn.density
        exact key "density" _ hv _ _ (Or.inr rfl)
      · split at hd
        · rename_i hk
          rw [List.mem_singleton] at hd
          subst hd
          obtain ⟨v, hv, _⟩ := hn.gamma hk
          exact key "gamma" _ hv _ _ (Or.inr rfl)
        · cases hd
      · split at hd
        · rename_i hk
          rw [List.mem_singleton] at hd
          subst hd
          obtain ⟨v, hv, _⟩ := hn.epsilon hk
          exact key "epsilon" _ hv _ _ (Or.inr rfl)
        · cases hd
  refine ⟨⟨?_, ?_⟩, ?_⟩
  · rw [hparams]
    intro d hd
    simp only [GtaVariant.params, List.mem_cons, List.not_mem_nil, or_false] at hd
    rcases hd with rfl | rfl | rfl | rfl
    · exact ⟨_, r1⟩
    · exact ⟨_, r2⟩
    · exact ⟨_, r3⟩
    · exact ⟨_, r4⟩
  · rw [htparams]
    exact hread
  · intro p htp hin hw hpb
    rw [hrb] at hpb
    have hpn : (env.params.map (·.name)).Nodup := by
      rw [hparams]
      simp only [GtaVariant.params, List.map_cons, List.map_nil]
      decide
    have htn : (env.tensorParams.map (·.name)).Nodup := by
      rw [htparams]
      exact tensorParams_nodup g
    have hflag : ∀ x : Bool, (if (if x then (1 : K) else 0) = 0 then some false else if (if x then (1 : K) else 0) = 1 then some true
        else none) = some x := by
      intro x; cases x <;> simp
    have f1 : flagOf p "int8_mask".toList = some b1 := by
      obtain ⟨v, h1, h2⟩ := param_value htp hpn ⟨"int8_mask".toList, false, some (flag false)⟩ (by rw [hparams]; simp [GtaVariant.params])
      simp only at h1 h2
      rw [r1, Except.ok.injEq] at h2
      subst h2
      have e1 : v1.getD (flag false) = yes b1 := e1
      rw [e1] at h1
      simp only [flagOf, h1, yes, hflag]
    have f2 : flagOf p "normalize".toList = some nrm := by
      obtain ⟨v, h1, h2⟩ := param_value htp hpn ⟨"normalize".toList, false, some (flag g.normalize)⟩ (by rw [hparams]; simp [GtaVariant.params])
      simp only at h1 h2
      rw [r2, Except.ok.injEq] at h2
      subst h2
      have e2 : v2.getD (flag g.normalize) = yes nrm := e2
      rw [e2] at h1
      simp only [flagOf, h1, yes, hflag]
    have f3 : truthOf p "rescale".toList = res := by
      obtain ⟨v, h1, h2⟩ := param_value htp hpn ⟨"rescale".toList, false, some (flag g.rescale)⟩ (by rw [hparams]; simp [GtaVariant.params])
      simp only at h1 h2
      rw [r3, Except.ok.injEq] at h2
      subst h2
      have e3 : v3.getD (flag g.rescale) = yes res := e3
      rw [e3] at h1
      simp only [truthOf, h1, yes]
      cases res <;> simp
    have f4 : numberOf p "lambda".toList = some lam := by
      obtain ⟨v, h1, h2⟩ := param_value htp hpn ⟨"lambda".toList, false, some (.num 1)⟩ (by rw [hparams]; simp [GtaVariant.params])
      simp only at h1 h2
      rw [r4, Except.ok.injEq] at h2
      subst h2
      rw [e4] at h1
      simp only [numberOf, h1]
    -- the numbers of a model
    have hmodel : ∀ i ∈ ins, i.1 ≠ b → ∀ src ∈ sl.sources, src.model = i.1 → ∀ n, NumbersAre g.sparsification c e.2 sl src i.2.name t n →
        weightOf p i.1 = some n.weight ∧ keywordOf p i.1 "density".toList none = .ok n.density ∧
        (∃ x, keywordOf p i.1 "gamma".toList (some 0) = .ok x ∧ (g.sparsification = some .magnitudeOutliers → x = n.gamma)) ∧
        ∃ x, keywordOf p i.1 "epsilon".toList (some 0) = .ok x ∧ (g.sparsification = some .dellaMagprune → x = n.epsilon) := by
      intro i hi hib src hsrc hm n hn
      have key : ∀ (key : String) (v : Option (Scalar K)), SaysOf c e.2 sl src i.2.name t key v → ∀ (default : Option (Scalar K)) (req : Bool),
          (⟨key.toList, req, default⟩ : ParamDef K) ∈ env.tensorParams → (v ≠ none ∨ req = false) →
          (lookup p.tensorParams i.1).bind (fun x => lookup x key.toList) = some (v.or default) := by
        intro key v hv default req hmem hor
        obtain ⟨v', h1, h2⟩ := tensorParam_value htp htn hnd i hi _ hmem
        have := saysOf_parameter hv hpar hsrc hsn default (req && !decide ((some i.1 : Option Ref) = some b))
          (hor.imp id (fun h => by rw [h]; rfl))
        rw [hm] at this
        simp only [hrb] at h2
        rw [this, Except.ok.injEq] at h2
        rw [h1, h2]
      refine ⟨?_, ?_, ?_, ?_⟩
      · have := key "weight" _ hn.weight none true (htparams ▸ mem_weight g) (Or.inl (by simp))
        simp only [weightOf, this, Option.or_none]
      · obtain ⟨v, hv, hd⟩ := hn.density
        have := key "density" _ hv (some (.num 1)) false (htparams ▸ mem_density g) (Or.inr rfl)
        have ev : v.or (some (.num 1)) = some (.num n.density) := by
          rw [← hd]; cases v <;> rfl
        rw [ev] at this
        simp only [keywordOf, this]
      · by_cases hk : g.sparsification = some .magnitudeOutliers
        · obtain ⟨v, hv, hd⟩ := hn.gamma hk
          have := key "gamma" _ hv (some (.num (1 / 100))) false (htparams ▸ mem_gamma g hk) (Or.inr rfl)
          have ev : v.or (some (.num (1 / 100))) = some (.num n.gamma) := by
            rw [← hd]; cases v <;> rfl
          rw [ev] at this
          exact ⟨n.gamma, by simp only [keywordOf, this], fun _ => rfl⟩
        · have := tensorParam_absent htp hnd i.1 "gamma".toList (htparams ▸ no_gamma g hk)
          exact ⟨0, by simp only [keywordOf, this], fun h => absurd h hk⟩
      · by_cases hk : g.sparsification = some .dellaMagprune
        · obtain ⟨v, hv, hd⟩ := hn.epsilon hk
          have := key "epsilon" _ hv (some (.num (15 / 100))) false (htparams ▸ mem_epsilon g hk) (Or.inr rfl)
          have ev : v.or (some (.num (15 / 100))) = some (.num n.epsilon) := by
            rw [← hd]; cases v <;> rfl
          rw [ev] at this
          exact ⟨n.epsilon, by simp only [keywordOf, this], fun _ => rfl⟩
        · have := tensorParam_absent htp hnd i.1 "epsilon".toList (htparams ▸ no_epsilon g hk)
          exact ⟨0, by simp only [keywordOf, this], fun h => absurd h hk⟩
    have hts := ownTensors_all own ins hloads
    rw [← hin] at hts
    -- sparsification
    have hsparse : ∀ i ∈ ins, i.1 ≠ b → (w.isEmbed = true ∨ (own i.1 i.2).shape = (own b wb).shape) → ∀ src ∈ sl.sources, src.model = i.1 →
        ∃ n, NumbersAre g.sparsification c e.2 sl src i.2.name t n ∧ weightOf p i.1 = some n.weight ∧
        ∀ d : Tensor K, d.shape = (own b wb).shape →
          ∃ d', sparsifyOf g tools p i.1 d = .ok d' ∧ Trimmed (tools.sample w.name i.1) n res d d' g.sparsification := by
      intro i hi hib hpart src hsrc hm
      obtain ⟨n, hn, hdo⟩ := hnum i hi hib src hsrc hm
      obtain ⟨h1, h2, ⟨ga, h3, h3'⟩, ⟨ep, h4, h4'⟩⟩ := hmodel i hi hib src hsrc hm n hn
      refine ⟨n, hn, h1, ?_⟩
      intro d hd
      have hdo := hdo hpart
      rw [← hd] at hdo
      unfold sparsifyOf
      cases hk : g.sparsification with
      | none => exact ⟨d, rfl, .plain rfl⟩
      | some kind =>
        rw [hk] at hdo
        obtain ⟨d', h5, h6⟩ := trim_ok tools hdesc hasc w.name i.1 n res kind d hdo ga ep (fun h => h3' (by rw [hk, h])) (fun h => h4' (by rw [hk, h]))
        refine ⟨d', ?_, h6⟩
        simp only [h2, h3, h4, f3, hw, h5]
    have hfits : Merge.Fits w.isEmbed b (own b wb) (ins.map (fun i => (i.1, own i.1 i.2))) := by
      constructor
      · have hfind : ∀ l : List (Ref × WeightInfo), (b, wb) ∈ l → (∀ i ∈ l, i.1 = b → i = (b, wb)) →
            (l.map (fun i => (i.1, own i.1 i.2))).find? (fun e => decide (e.1 = b)) = some (b, own b wb) := by
          intro l
          induction l with
          | nil => intro h; cases h
          | cons x l ih =>
            intro h h'
            by_cases hx : x.1 = b
            · have := h' x (by simp) hx
              subst this
              simp
            · rw [List.map_cons, List.find?_cons_of_neg (by simpa using hx)]
              refine ih ?_ (fun i hi => h' i (by simp [hi]))
              rcases List.mem_cons.1 h with h | h
              · rw [← h] at hx
                exact absurd rfl hx
              · exact h
        unfold Merge.lookup
        rw [hfind ins hbin honly]
        rfl
      · intro hemb' e' he' hne
        obtain ⟨i, hi, rfl⟩ := List.mem_map.1 he'
        exact hemb hemb' i hi hne
    have hparts : Merge.participants w.isEmbed b (own b wb) (ins.map (fun i => (i.1, own i.1 i.2))) =
        (ins.filter (fun i => decide (i.1 ≠ b ∧ (w.isEmbed = true ∨ (own i.1 i.2).shape = (own b wb).shape)))).map
          (fun i => (i.1, own i.1 i.2)) := by
      unfold Merge.participants
      rw [List.filter_map]
      rfl
    obtain ⟨parts, y, h1, h2, h3, h4⟩ := gta_works g.consensus w.isEmbed nrm lam (fun m => (weightOf p m).getD 0) (sparsifyOf g tools p) b
      (own b wb) _ hfits (by
        intro e' he' d hd
        rw [hparts] at he'
        obtain ⟨i, hi, rfl⟩ := List.mem_map.1 he'
        obtain ⟨hi1, hi2⟩ := List.mem_filter.1 hi
        simp only [decide_eq_true_eq] at hi2
        obtain ⟨src, hsrc, hm⟩ := hsrcOf i hi1
        obtain ⟨n, _, _, h5⟩ := hsparse i hi1 hi2.1 hi2.2 src hsrc hm
        obtain ⟨d', h6, _⟩ := h5 d hd
        exact ⟨d', h6⟩)
    have hmethod : s.method p (ins.map (fun i => (i.1, own i.1 i.2))) = .ok (some y) := by
      rw [hmeth]
      simp only [gtaMethod, hpb, f1, f2, f4]
      rw [if_pos]
      · rw [hw]
        simp only [h2]
      · rw [List.all_eq_true]
        intro e' he'
        obtain ⟨i, hi, rfl⟩ := List.mem_map.1 he'
        by_cases hib : i.1 = b
        · simp [hib]
        · obtain ⟨src, hsrc, hm⟩ := hsrcOf i hi
          obtain ⟨n, hn, _⟩ := hnum i hi hib src hsrc hm
          simp [(hmodel i hi hib src hsrc hm n hn).1]
    obtain ⟨z, hz⟩ := exists_stored s w y htype
    refine ⟨z, ⟨y, b, wb, nrm, res, lam, hz, hbi, hbin, ⟨⟨v1, b1, hv1, e1⟩, ⟨v2, hv2, e2⟩, ⟨v3, hv3, e3⟩, ⟨v4, hv4, e4⟩⟩, h3, ?_⟩,
      ⟨_, by rw [hts, hin], Or.inl ⟨y, z, hmethod, hw ▸ hz, rfl⟩⟩⟩
    rw [hparts] at h1 h4
    have hall : ∀ i ∈ ins.filter (fun i => decide (i.1 ≠ b ∧ (w.isEmbed = true ∨ (own i.1 i.2).shape = (own b wb).shape))),
        i ∈ ins ∧ i.1 ≠ b ∧ (w.isEmbed = true ∨ (own i.1 i.2).shape = (own b wb).shape) := by
      intro i hi
      obtain ⟨hi1, hi2⟩ := List.mem_filter.1 hi
      simp only [decide_eq_true_eq] at hi2
      exact ⟨hi1, hi2⟩
    generalize ins.filter (fun i => decide (i.1 ≠ b ∧ (w.isEmbed = true ∨ (own i.1 i.2).shape = (own b wb).shape))) = fl at h1 h4 hall ⊢
    refine ⟨(fl.zip parts).map (fun x => ((weightOf p x.1.1).getD 0, x.2)), ?_, ?_⟩
    · clear h4
      rw [List.forall₂_map_left_iff] at h1
      induction h1 with
      | nil => exact .nil
      | @cons i x fl parts hx _ ih =>
        simp only [List.zip_cons_cons, List.map_cons]
        refine .cons ?_ (ih (fun i hi => hall i (by simp [hi])))
        obtain ⟨hi1, hi2, hi3⟩ := hall i (by simp)
        obtain ⟨src, hsrc, hm⟩ := hsrcOf i hi1
        obtain ⟨n, hn, hwt, h5⟩ := hsparse i hi1 hi2 hi3 src hsrc hm
        obtain ⟨a, ha, hax⟩ := hx
        simp only at hax ha
        obtain ⟨d', h6, h7⟩ := h5 (diff a (own b wb)) rfl
        rw [h6, Except.ok.injEq] at hax
        subst hax
        exact ⟨src, hsrc, hm, n, hn, by simp [hwt], a, ha, h7⟩
    · intro k
      refine ⟨_, mix_combined g.consensus nrm lam _, ?_⟩
      rw [h4]
      congr 2
      clear h4 h1
      induction fl generalizing parts with
      | nil => rfl
      | cons i fl ih =>
        cases parts with
        | nil => rfl
        | cons x parts =>
          simp only [List.map_cons, List.zip_cons_cons, List.cons.injEq, true_and]
          exact ih parts (fun i hi => hall i (by simp [hi]))

/-- The registered variants have different names, so a name in a configuration means one of them. -/
theorem C110_names : (gtaVariants.map (·.name)).Nodup := by decide +kernel

/-- **C110** What the eight names mean. -/
theorem C110_registered : (∀ name, name ∈ gtaVariants.map (·.name) ↔ name ∈ ["task_arithmetic".toList, "ties".toList, "dare_ties".toList,
      "dare_linear".toList, "breadcrumbs".toList, "breadcrumbs_ties".toList, "della".toList, "della_linear".toList]) ∧
    ∀ g ∈ gtaVariants,
      -- signs are elected, by weight, in all with "ties" and in della
      g.consensus = (if g.name ∈ ["ties".toList, "dare_ties".toList, "breadcrumbs_ties".toList, "della".toList] then some .sum else none) ∧
      -- ties keeps the largest entries, dare random ones, breadcrumbs the middle, della larger ones more often
      (g.sparsification = none ↔ g.name = "task_arithmetic".toList) ∧
      (g.sparsification = some .magnitude ↔ g.name = "ties".toList) ∧
      (g.sparsification = some .random ↔ g.name = "dare_ties".toList ∨ g.name = "dare_linear".toList) ∧
      (g.sparsification = some .magnitudeOutliers ↔ g.name = "breadcrumbs".toList ∨ g.name = "breadcrumbs_ties".toList) ∧
      (g.sparsification = some .dellaMagprune ↔ g.name = "della".toList ∨ g.name = "della_linear".toList) ∧
      -- weights are divided by their sum in ties and della
      (g.normalize = true ↔ g.name = "ties".toList ∨ g.name = "della".toList) ∧
      -- the changes are rescaled where they are dropped at random
      (g.rescale = true ↔ g.sparsification = some .random ∨ g.sparsification = some .dellaMagprune) := by
  constructor
  · intro name
    rfl
  · intro g hg
    unfold gtaVariants at hg
    simp only [List.mem_cons, List.not_mem_nil, or_false] at hg
    rcases hg with rfl | rfl | rfl | rfl | rfl | rfl | rfl | rfl <;> decide +kernel

end

/-! ## A concrete case: TIES -/

def tiesVariant : GtaVariant := ⟨"ties".toList, some .sum, some .magnitude, true, false⟩

example : tiesVariant ∈ gtaVariants := by simp [gtaVariants, tiesVariant]

/-- Three layers of "a", the base model, and of "b", whose weight runs from 0 to 1. -/
def tieSlice : OutSlice ℚ := ⟨[⟨refB, 0, 3, [("weight".toList, numbers [0, 1])]⟩, ⟨refA, 0, 3, []⟩], none, []⟩

/-- Half of the entries are to be kept; the weights are not to be divided by their sum. -/
def tieConfig : MergeConfig ℚ :=
  { slices := some [tieSlice], baseModel := some refA,
    parameters := [("density".toList, .scalar (.num (1 / 2))), ("normalize".toList, .scalar (.num 0))] }

def tieEnv : Env ℚ := archOf ℚ 3 tiesVariant.params tiesVariant.tensorParams

/-- All tensors of "a" are (10, 10, 10, 10), all of "b" (13, 9, 14, 10). -/
def tieOwn (m : Ref) : Tensor ℚ :=
  ⟨[4], fun i => if m = refA then 10 else if i = 0 then 13 else if i = 1 then 9 else if i = 2 then 14 else 10⟩

noncomputable def tieTools : Tools ℚ :=
  ⟨id, fun w n => (Sparsify.someSort w n).reverse, Sparsify.someSort, fun _ _ _ _ => true⟩

noncomputable def tieSetup : Setup ℚ (Tensor ℚ) MethodErr where
  casts := ⟨fun _ => .float32, fun _ x => x⟩
  loaders := fun m => lettersLoader (Tensor ℚ) (fun _ => tieOwn m)
  dtype := none
  outDtype := none
  method := gtaMethod tiesVariant tieTools

def tieModule : OutModule ℚ := ⟨some [tieSlice], none, []⟩

theorem tie_usable : Usable tieEnv [("default", tieModule)] := by
  refine archOf_usable [] _ _ 3 ?_ ?_ ?_ ?_ ?_
  · intro s hs
    rw [List.mem_singleton] at hs
    subst hs
    exact ⟨by simp [tieSlice], by simp [tieSlice]⟩
  · intro s hs
    rw [List.mem_singleton] at hs
    subst hs
    simp [tieSlice]
  · intro s hs
    rw [List.mem_singleton] at hs
    subst hs
    simp only [tieSlice, List.map_cons, List.map_nil]
    decide
  · intro s hs
    rw [List.mem_singleton] at hs
    subst hs
    simpa [tieSlice] using ⟨plainB, plainA⟩
  · intro a b ha hb
    cases ha; cases hb
    exact le_refl _

/-- The middle layer. -/
theorem tie_place : Place tieEnv "default" [tieSlice] (nm 'w' 1) tieSlice (1 / 2) [(refB, nm 'w' 1), (refA, nm 'w' 1)] := by
  have h := Place.layer (env := tieEnv) (n := "default") (slices := [tieSlice]) 1 tieSlice 1 0 (nm 'w' 1)
    [(refB, nm 'w' 1), (refA, nm 'w' 1)] ⟨[], [], rfl, by decide, by decide⟩ rfl (.cons ⟨rfl, rfl⟩ (.cons ⟨rfl, rfl⟩ .nil))
  have e : (if OutSlice.len tieSlice ≤ 1 then (1 : ℚ) else ((1 : Nat) : ℚ) / ((OutSlice.len tieSlice : ℚ) - 1)) = 1 / 2 := by
    have : OutSlice.len tieSlice = 3 := rfl
    rw [this]
    norm_num
  rw [e] at h
  exact h

theorem tie_weight (name : Str) (t : ℚ) (h0 : 0 ≤ t) (h1 : t ≤ 1) :
    SaysOf tieConfig tieModule tieSlice ⟨refB, 0, 3, [("weight".toList, numbers [0, 1])]⟩ name t "weight" (some (.num t)) := by
  have := along_two t 0 1 h0 h1
  have e : (0 : ℚ) + t * (1 - 0) = t := by ring
  rw [e] at this
  exact .found (.gradient _ _ this)

theorem tie_density (name : Str) (t : ℚ) :
    SaysOf tieConfig tieModule tieSlice ⟨refB, 0, 3, [("weight".toList, numbers [0, 1])]⟩ name t "density" (some (.num (1 / 2))) :=
  .unset (.unset (.unset (.found (.scalar _))))

theorem tie_normalize (name : Str) (t : ℚ) : Says tieConfig tieModule tieSlice name t "normalize" (some (.num 0)) :=
  .unset (.unset (.found (.scalar _)))

/-- All hypotheses of C110 are met. -/
theorem tie_delivers : Delivers tieEnv tieConfig [("default", tieModule)] tieSetup
    (Arithmetic tiesVariant tieTools.sample tieConfig tieSetup (fun m _ => tieOwn m)) := by
  refine C110_task_arithmetic tiesVariant tieTools Sparsify.someSort_desc Sparsify.someSort_sorts tieEnv rfl rfl _ _
    (.slices _ _ "default" rfl rfl rfl) tie_usable tieSetup rfl _ ?_
  intro e he w sl t ins hpl hno
  rw [List.mem_singleton] at he
  subst he
  obtain ⟨⟨ch, k, rfl⟩, h0, h1, hin⟩ := archOf_inputs (N := 8) (by
    intro s hs
    simp only [tieModule, Option.getD_some, List.mem_singleton] at hs
    subst hs
    simp [tieSlice]) (by
    intro s hs
    simp only [tieModule, Option.getD_some, List.mem_singleton] at hs
    subst hs
    simp [tieSlice]) hpl
  obtain ⟨hs, hms⟩ := hpl.models
  simp only [tieModule, Option.getD_some, List.mem_singleton] at hs
  subst hs
  obtain ⟨i, hi, hia⟩ : ∃ i ∈ ins, i.1 = refA := by
    have : refA ∈ ins.map Prod.fst := by rw [hms]; simp [tieSlice]
    exact List.mem_map.1 this
  obtain ⟨_, wb⟩ := i
  simp only at hia
  subst hia
  refine ⟨fun i hi => letters_load (fun _ => tieOwn i.1) _ _ (hin i hi), Or.inl rfl, ⟨refA, wb, Or.inr ⟨rfl, rfl⟩, hi, ?_, ?_, ?_⟩, ?_⟩
  · intro _ i _ _
    exact Or.inl rfl
  · intro i hi hne src hsrc hm
    simp only [tieSlice, List.mem_cons, List.not_mem_nil, or_false] at hsrc
    rcases hsrc with rfl | rfl
    · refine ⟨⟨t, 1 / 2, 0, 0⟩, ⟨tie_weight _ t h0 h1, ⟨_, tie_density _ t, rfl⟩, (by intro h; cases h), (by intro h; cases h)⟩, fun _ => ?_⟩
      refine .largest ?_ ?_
      · norm_num
      · simp only [tieOwn, List.prod_cons, List.prod_nil]
        norm_num
    · exact absurd hm.symm hne
  · intro src hsrc hm key hkey
    simp only [tieSlice, List.mem_cons, List.not_mem_nil, or_false] at hsrc
    rcases hsrc with rfl | rfl
    · exact absurd hm (by decide)
    · simp only [List.mem_cons, List.not_mem_nil, or_false] at hkey
      rcases hkey with rfl | rfl | rfl | rfl
      · exact ⟨none, .unset (.unset (.unset (.unset .nothing)))⟩
      · exact ⟨_, .unset (.unset (.unset (.found (.scalar _))))⟩
      · exact ⟨none, .unset (.unset (.unset (.unset .nothing)))⟩
      · exact ⟨none, .unset (.unset (.unset (.unset .nothing)))⟩
  · exact ⟨false, false, 1, ⟨none, false, .unset (.unset (.unset .nothing)), rfl⟩, ⟨_, tie_normalize _ t, rfl⟩,
      ⟨none, .unset (.unset (.unset .nothing)), rfl⟩, ⟨none, .unset (.unset (.unset .nothing)), rfl⟩⟩

/-- In the middle layer only the two large changes, 3 and 4, are kept, and added with weight 1/2. -/
example (pop : ∀ n, Graph.PopOracle n) : ∃ mods trace fs idx, plan tieEnv tieConfig = .ok mods ∧
    runTasks (jobs ℚ tieSetup.dtype) (fun _ => "") (fun _ => 0) (execJob tieSetup) pop (targets (planned mods)) = some (trace, .finished) ∧
    ∃ z : Tensor ℚ, z.get 0 = 23 / 2 ∧ z.get 1 = 10 ∧ z.get 2 = 12 ∧ z.get 3 = 10 ∧
      (Writer.getTensor fs idx (Writer.afterHistory fs idx none []) "w|" [] true).1 = .ok (some z) := by
  obtain ⟨mods, hp, trace, h, fs, _, _, idx, _, _, hval⟩ := tie_delivers (fun _ => "") (fun _ => 0) pop ⟨100, true, none⟩ (fun _ => 4)
    (by constructor <;> rfl)
  refine ⟨mods, trace, fs, idx, hp, h, ?_⟩
  obtain ⟨z, ⟨y, b, wb, nrm, res, lam, hz, hb, hbin, htog, _, parts, hparts, hy⟩, hread⟩ :=
    hval _ (List.mem_singleton.2 rfl) _ _ _ _ tie_place (by rintro ⟨h, _⟩; cases h)
  have hyz : z = y := by
    cases hz with
    | unchanged _ => rfl
    | cast n d h => cases h
  subst hyz
  have hne : ¬ refB = refA := by decide
  have hb : b = refA := by
    rcases hb with h | ⟨_, h⟩
    · cases h
    · cases h; rfl
  subst hb
  obtain ⟨_, ⟨v2, hv2, e2⟩, ⟨v3, hv3, e3⟩, ⟨v4, hv4, e4⟩⟩ := htog
  have hnrm : nrm = false := by
    have := reads_unique hv2 (tie_normalize _ _)
    subst this
    cases nrm
    · rfl
    · simp [yes] at e2
  have hres : res = false := by
    have := reads_unique hv3 (.unset (.unset (.unset .nothing)))
    subst this
    cases res
    · rfl
    · simp [yes, tiesVariant] at e3
  have hlam : lam = 1 := by
    have := reads_unique hv4 (.unset (.unset (.unset .nothing)))
    subst this
    simpa using e4.symm
  subst hnrm hres hlam
  have hfilter : ([(refB, nm 'w' 1), (refA, nm 'w' 1)] : List (Ref × WeightInfo)).filter (fun i => decide (i.1 ≠ refA ∧
      ((nm 'w' 1).isEmbed = true ∨ (tieOwn i.1).shape = (tieOwn refA).shape))) = [(refB, nm 'w' 1)] := by
    rw [List.filter_cons_of_pos (by simp [hne, tieOwn]), List.filter_cons_of_neg (by simp), List.filter_nil]
  rw [hfilter] at hparts
  obtain ⟨x, rfl⟩ : ∃ x, parts = [x] := by
    cases hparts with
    | cons _ h => cases h; exact ⟨_, rfl⟩
  obtain ⟨src, hsrc, hm, n, hn, hx, a, ha, htr⟩ := (List.forall₂_cons.1 hparts).1
  have hsrc' : src = ⟨refB, 0, 3, [("weight".toList, numbers [0, 1])]⟩ := by
    simp only [tieSlice, List.mem_cons, List.not_mem_nil, or_false] at hsrc
    rcases hsrc with h | h
    · exact h
    · rw [h] at hm
      exact absurd hm (by decide)
  subst hsrc'
  have hwt : n.weight = 1 / 2 := by
    have := reads_unique hn.weight (tie_weight _ _ (by norm_num) (by norm_num))
    simpa using this
  have hden : n.density = 1 / 2 := by
    obtain ⟨v, hv, e⟩ := hn.density
    have := reads_unique hv (tie_density _ _)
    subst this
    simpa using e.symm
  have haa : a = tieOwn refB := by
    cases ha with
    | same _ => rfl
    | cut _ _ _ _ _ h => cases h
  subst haa
  have hk : x.2.get 0 = 3 ∧ x.2.get 1 = 0 ∧ x.2.get 2 = 4 ∧ x.2.get 3 = 0 := by
    cases htr with
    | dense _ h _ => rw [hden] at h; norm_num at h
    | largest kept c _ hc hkeep hnd hlen hlt htop =>
      have hc : c = 1 := hc.off rfl
      subst hc
      have hprod : (diff (tieOwn refB) (tieOwn refA)).shape.prod = 4 := rfl
      have hd : ∀ k, (diff (tieOwn refB) (tieOwn refA)).get k = (if k = 0 then 13 else if k = 1 then 9 else if k = 2 then 14 else 10) - 10 := by
        intro k
        simp only [diff, tieOwn, if_neg hne, if_true]
      rw [hden, hprod] at hlen
      have hlen : kept.length = 2 := by
        have : ⌊(1 / 2 : ℚ) * ((4 : Nat) : ℚ)⌋ = 2 := by norm_num
        rw [this] at hlen
        exact_mod_cast hlen
      rw [hprod] at hlt htop
      have hsub : ∀ l : List Nat, (∀ k ∈ kept, k ∈ l) → 2 ≤ l.length := by
        intro l h
        rw [← hlen]
        exact (hnd.subperm h).length_le
      have h0 : 0 ∈ kept := by
        by_contra hno
        refine absurd (hsub [2] ?_) (by decide)
        intro k hk
        have h1 := htop k hk 0 (by norm_num) hno
        have h2 := hlt k hk
        rw [hd, hd] at h1
        interval_cases k <;> first | exact absurd hk hno | exact List.mem_singleton.2 rfl | (norm_num at h1)
      have h2 : 2 ∈ kept := by
        by_contra hno
        refine absurd (hsub [0] ?_) (by decide)
        intro k hk
        have h1 := htop k hk 2 (by norm_num) hno
        have h2 := hlt k hk
        rw [hd, hd] at h1
        interval_cases k <;> first | exact absurd hk hno | exact List.mem_singleton.2 rfl | (norm_num at h1)
      have hother : ∀ k, k ≠ 0 → k ≠ 2 → k ∉ kept := by
        intro k hk0 hk2 hk
        have := (List.Nodup.subperm (l₁ := [0, 2, k]) (by simp [hk0.symm, hk2.symm]) (by
          intro j hj
          simp only [List.mem_cons, List.not_mem_nil, or_false] at hj
          rcases hj with rfl | rfl | rfl <;> assumption)).length_le
        rw [hlen] at this
        simp at this
      refine ⟨?_, hkeep.outside 1 (hother 1 (by decide) (by decide)), ?_, hkeep.outside 3 (hother 3 (by decide) (by decide))⟩
      · rw [hkeep.inside 0 h0, hd]; norm_num
      · rw [hkeep.inside 2 h2, hd]; norm_num
  have hval : ∀ k, 0 ≤ x.2.get k → z.get k = 10 + 1 / 2 * x.2.get k := by
    intro k hpos
    obtain ⟨delta, hcomb, hzk⟩ := hy k
    have hbase : (tieOwn refA).get k = 10 := by simp [tieOwn]
    rw [hzk, hbase]
    simp only [List.map_cons, List.map_nil, hx, hwt] at hcomb
    congr 1
    cases hcomb with
    | agreeing _ s hel =>
      have hs : s = 1 := by
        cases hel with
        | sumPos _ => rfl
        | sumNeg h =>
          simp only [List.map_cons, List.map_nil, List.sum_cons, List.sum_nil] at h
          linarith
      subst hs
      rcases hpos.eq_or_lt with h | h
      · simp [agreeing, ← h]
      · simp [agreeing, h]
  obtain ⟨k0, k1, k2, k3⟩ := hk
  refine ⟨z, ?_, ?_, ?_, ?_, hread [] [] true⟩
  · rw [hval 0 (by rw [k0]; norm_num), k0]; norm_num
  · rw [hval 1 (by rw [k1]), k1]; norm_num
  · rw [hval 2 (by rw [k2]; norm_num), k2]; norm_num
  · rw [hval 3 (by rw [k3]), k3]; norm_num

end Verif.WholeMerge
