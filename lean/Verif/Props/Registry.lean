import Verif.Props.WholeMethod
import Verif.Props.Slerp
import Verif.Props.Stock
import Verif.Props.Ram
import Verif.Props.Linear
import Verif.Props.Barycenter
import Verif.Props.WholeTask
import Verif.Props.OrderSphere

/-! # C113, C114: the registered merge methods, from the configuration to the files -/

set_option linter.unusedSectionVars false

namespace Verif.WholeMerge

open Verif.ModelRef (Str Ref)
open Verif.LoadTask (LoadTensor WeightInfo Casts Loader ownTensors typeNames wanted)
open Verif.Plan
open Verif.Config
open Verif.Pipeline
open Verif.Tensor (Tensor)

/-! ## Specification -/

/-- A planner and a run that use the method with this name. -/
def Uses (ch : Chance) (name : String) (env : Env ℝ) (s : Setup ℝ (Tensor ℝ) MethodErr) : Prop :=
  ∃ m, getMethod ch name.toList = some m ∧ env.params = m.params ∧ env.tensorParams = m.tensorParams ∧ s.method = m.task

/-- The value that counts for a key: the one that is set, or a default. -/
def Counts (c : MergeConfig ℝ) (d : OutModule ℝ) (sl : OutSlice ℝ) (name : Str) (t : ℝ) (key : String) (default x : Scalar ℝ) : Prop :=
  ∃ v, Says c d sl name t key v ∧ v.getD default = x

/-- What can be loaded for a place is `own`, and it can be stored. -/
structure Fed (s : Setup ℝ (Tensor ℝ) MethodErr) (own : Ref → WeightInfo → Tensor ℝ) (w : WeightInfo) (ins : List (Ref × WeightInfo)) : Prop where
  loads : ∀ i ∈ ins, (wanted s.dtype i.2).execute s.casts (s.loaders i.1) = .ok (some (own i.1 i.2))
  type : storedType s.outDtype w = none ∨ ∃ n d, storedType s.outDtype w = some n ∧ (n, d) ∈ typeNames

/-- The tensors of the models but one. -/
def allBut (b : Ref) (own : Ref → WeightInfo → Tensor ℝ) (ins : List (Ref × WeightInfo)) : List (Tensor ℝ) :=
  (ins.filter (fun i => decide (i.1 ≠ b))).map (fun i => own i.1 i.2)

/-- The weight that a configuration gives to an input. -/
def WeightIs (c : MergeConfig ℝ) (d : OutModule ℝ) (sl : OutSlice ℝ) (t : ℝ) (i : Ref × WeightInfo) (x : ℝ) : Prop :=
  ∃ src ∈ sl.sources, src.model = i.1 ∧ SaysOf c d sl src i.2.name t "weight" (some (.num x))

/-! ## What a method sees -/

section
variable {env : Env ℝ} {c : MergeConfig ℝ} {d : OutModule ℝ} {w : WeightInfo} {sl : OutSlice ℝ} {t : ℝ} {ins : List (Ref × WeightInfo)} {v : View ℝ}

theorem seen_told (hv : SeenAt env c d w sl t ins v) {key : String} {default x : Scalar ℝ}
    (hq : (⟨key.toList, false, some default⟩ : ParamDef ℝ) ∈ env.params) (h : Counts c d sl w.name t key default x) :
    v.value key.toList = some (some x) := by
  obtain ⟨y, hy, _, hval⟩ := hv.param _ hq
  obtain ⟨y', hy', rfl⟩ := h
  have := reads_unique hy hy'
  subst this
  rw [hval]
  cases y <;> rfl

theorem seen_required (hv : SeenAt env c d w sl t ins v) {key : String} {x : Scalar ℝ}
    (hq : (⟨key.toList, true, none⟩ : ParamDef ℝ) ∈ env.params) (h : Says c d sl w.name t key (some x)) :
    v.value key.toList = some (some x) := by
  obtain ⟨y, hy, _, hval⟩ := hv.param _ hq
  have := reads_unique hy h
  subst this
  rw [hval]
  rfl

theorem seen_weight (hv : SeenAt env c d w sl t ins v) (hq : (⟨"weight".toList, true, none⟩ : ParamDef ℝ) ∈ env.tensorParams)
    {i : Ref × WeightInfo} (hi : i ∈ ins) {x : ℝ} (h : WeightIs c d sl t i x) : asNumber (v.valueOf i.1 "weight".toList) = some x := by
  obtain ⟨src, hsrc, hm, hs⟩ := h
  obtain ⟨y, hy, _, hval⟩ := hv.modelParam i hi src hsrc hm _ hq
  have := reads_unique hy hs
  subst this
  simp only at hval
  rw [hval]
  rfl

theorem asBool_yes (b : Bool) : asBool (some (some (yes b : Scalar ℝ))) = some b := by
  cases b <;> simp [asBool, yes]

theorem asTruth_yes (b : Bool) : asTruth (some (some (yes b : Scalar ℝ))) = b := by
  cases b <;> simp [asTruth, yes]

theorem base_unique {b b' : Ref} (h : BaseIs c sl b) (h' : BaseIs c sl b') : b = b' := by
  rcases h with h | ⟨h, h1⟩ <;> rcases h' with h' | ⟨h', h1'⟩ <;> simp_all

theorem seen_noBase (hv : SeenAt env c d w sl t ins v) (h : ∀ b, ¬ BaseIs c sl b) : v.base = none := by
  cases hb : v.base with
  | none => rfl
  | some b => exact absurd ((hv.base b).1 hb) (h b)

end

/-! ## Looking up methods -/

theorem insertMethod_new (reg : List Method) (m : Method) (h : m.name ∉ reg.map (·.name)) : insertMethod reg m = reg ++ [m] := by
  unfold insertMethod
  rw [if_neg]
  rw [List.any_eq_true]
  rintro ⟨x, hx, hn⟩
  exact h (List.mem_map.2 ⟨x, hx, by simpa using hn⟩)

theorem insert_all (reg ms : List Method) (h : ((reg ++ ms).map (·.name)).Nodup) : ms.foldl insertMethod reg = reg ++ ms := by
  induction ms generalizing reg with
  | nil => simp
  | cons m ms ih =>
    rw [List.foldl_cons, insertMethod_new, ih]
    · simp
    · simpa using h
    · rw [List.map_append, List.map_cons, List.nodup_append] at h
      intro hm
      exact h.2.2 _ hm _ (by simp) rfl

section
variable {K : Type}

theorem args_skip (a : Arg K) (rest : List (Arg K)) (d : Decorated K) (h : a.name = "base_tensor".toList ∨ a.name = "tensors".toList) :
    registerArgs (a :: rest) d = registerArgs rest d := by
  rw [registerArgs, if_pos h]

theorem args_scalar (n : Str) (x : Option (Default K)) (rest : List (Arg K)) (d : Decorated K)
    (h : ¬ (n = "base_tensor".toList ∨ n = "tensors".toList) ∧ n ∉ standardKwargs) :
    registerArgs (⟨n, .scalar, x⟩ :: rest) d = registerArgs rest { d with params := d.params ++ [⟨n, x.isNone, x.bind Default.value⟩] } := by
  rw [registerArgs, if_neg h.1, if_neg h.2]

theorem args_numbers (n : Str) (rest : List (Arg K)) (d : Decorated K)
    (h : ¬ (n = "base_tensor".toList ∨ n = "tensors".toList) ∧ n ∉ standardKwargs) :
    registerArgs (⟨n, .numbers, none⟩ :: rest) d = registerArgs rest { d with tensorParams := d.tensorParams ++ [⟨n, true, none⟩] } := by
  rw [registerArgs, if_neg h.1, if_neg h.2]
  rfl

theorem register_required (n : Str) (x y : Option (Default K)) (rest : List (Arg K)) (h : n = "base_tensor".toList) :
    register (⟨"tensors".toList, .tensors, x⟩ :: ⟨n, .tensor, y⟩ :: rest) =
      registerArgs rest { useBase := true, requireBase := true } := by
  subst h
  have h1 : ¬ ("tensors".toList = "base_tensor".toList) := by decide +kernel
  rw [register, List.find?_cons_of_pos (by simp)]
  simp only [ne_eq, not_true_eq_false, if_false]
  rw [List.find?_cons_of_neg (by simpa using h1), List.find?_cons_of_pos (by simp)]
  simp only
  rw [args_skip _ _ _ (Or.inr rfl), args_skip _ _ _ (Or.inl rfl)]

end

theorem multislerp_registers : register (multislerpArgs (K := ℝ)) = .ok ⟨true, false, [], [⟨"normalize_weights".toList, false, some (.num 1)⟩,
    ⟨"eps".toList, false, some (.num (1 / 100000000))⟩], [⟨"weight".toList, true, none⟩]⟩ := by
  have h1 : ¬ ("tensors".toList = "base_tensor".toList) := by decide +kernel
  have h2 : ¬ ("weight".toList = "base_tensor".toList) := by decide +kernel
  rw [register, multislerpArgs, List.find?_cons_of_pos (by simp)]
  simp only [ne_eq, not_true_eq_false, if_false]
  rw [List.find?_cons_of_neg (by simpa using h1), List.find?_cons_of_neg (by simpa using h2), List.find?_cons_of_pos (by simp)]
  simp only
  rw [args_skip _ _ _ (Or.inr rfl), args_numbers _ _ _ (by decide +kernel), args_skip _ _ _ (Or.inl rfl), args_scalar _ _ _ _ (by decide +kernel),
    args_scalar _ _ _ _ (by decide +kernel)]
  rfl

theorem nearswap_registers : register (nearswapArgs (K := ℝ)) = .ok ⟨true, true, [], [⟨"t".toList, true, none⟩], []⟩ := by
  rw [nearswapArgs, register_required _ _ _ _ rfl, args_scalar _ _ _ _ (by decide +kernel)]
  rfl

theorem ram_registers : register (ramArgs (K := ℝ)) = .ok ⟨true, true, [], [⟨"epsilon".toList, false, some (.num (1 / 100000))⟩], []⟩ := by
  rw [ramArgs, register_required _ _ _ _ rfl, args_scalar _ _ _ _ (by decide +kernel)]
  rfl

theorem ramplus_registers : register (ramplusArgs (K := ℝ)) = .ok ⟨true, true, [], [⟨"r".toList, false, some (.num (1 / 10))⟩,
    ⟨"alpha".toList, false, some (.num (2 / 10))⟩, ⟨"epsilon".toList, false, some (.num (1 / 100000))⟩], []⟩ := by
  rw [ramplusArgs, register_required _ _ _ _ rfl, args_scalar _ _ _ _ (by decide +kernel), args_scalar _ _ _ _ (by decide +kernel),
    args_scalar _ _ _ _ (by decide +kernel)]
  rfl

theorem sce_registers : register (sceArgs (K := ℝ)) = .ok ⟨true, true, [], [⟨"int8_mask".toList, false, some (.num 0)⟩,
    ⟨"select_topk".toList, false, some (.num 1)⟩], []⟩ := by
  rw [sceArgs, register_required _ _ _ _ rfl, args_scalar _ _ _ _ (by decide +kernel), args_scalar _ _ _ _ (by decide +kernel)]
  rfl

/-- The decorated methods. -/
noncomputable def decoratedMethods (ch : Chance) : List Method :=
  [⟨"multislerp".toList, [⟨"normalize_weights".toList, false, some (.num 1)⟩, ⟨"eps".toList, false, some (.num (1 / 100000000))⟩],
    [⟨"weight".toList, true, none⟩], fun p => multislerpMethod ch (viewOf p)⟩,
   ⟨"nearswap".toList, [⟨"t".toList, true, none⟩], [], fun p => nearswapMethod ch (viewOf p)⟩,
   ⟨"ram".toList, [⟨"epsilon".toList, false, some (.num (1 / 100000))⟩], [], fun p => ramMethod ch (viewOf p)⟩,
   ⟨"ramplus_tl".toList, [⟨"r".toList, false, some (.num (1 / 10))⟩, ⟨"alpha".toList, false, some (.num (2 / 10))⟩,
    ⟨"epsilon".toList, false, some (.num (1 / 100000))⟩], [], fun p => ramplusMethod ch (viewOf p)⟩,
   ⟨"sce".toList, [⟨"int8_mask".toList, false, some (.num 0)⟩, ⟨"select_topk".toList, false, some (.num 1)⟩], [],
    fun p => sceMethod ch (viewOf p)⟩]

theorem registry_eq (ch : Chance) : registry ch = staticMethods ch ++ decoratedMethods ch := by
  have h1 : decorated "multislerp".toList multislerpArgs (multislerpMethod ch) ++ decorated "nearswap".toList nearswapArgs (nearswapMethod ch) ++
    decorated "ram".toList ramArgs (ramMethod ch) ++ decorated "ramplus_tl".toList ramplusArgs (ramplusMethod ch) ++
    decorated "sce".toList sceArgs (sceMethod ch) = decoratedMethods ch := by
    simp only [decorated, multislerp_registers, nearswap_registers, ram_registers, ramplus_registers, sce_registers]
    rfl
  have hn : ((staticMethods ch ++ decoratedMethods ch).map (·.name)).Nodup := by
    simp only [staticMethods, decoratedMethods, gtaVariants, List.map_cons, List.map_nil, List.cons_append, List.nil_append]
    decide +kernel
  unfold registry
  rw [h1, insert_all [] (staticMethods ch), List.nil_append, insert_all _ _ hn]
  rw [List.nil_append]
  rw [List.map_append, List.nodup_append] at hn
  exact hn.1

theorem registry_distinct (ch : Chance) : ((registry ch).map (·.name)).Nodup := by
  rw [registry_eq]
  simp only [staticMethods, decoratedMethods, gtaVariants, List.map_cons, List.map_nil, List.cons_append, List.nil_append]
  decide +kernel

theorem getMethod_mem (ch : Chance) (m : Method) (h : m ∈ registry ch) : getMethod ch m.name = some m := by
  unfold getMethod
  have hn := registry_distinct ch
  generalize registry ch = l at h hn
  induction l with
  | nil => cases h
  | cons a l ih =>
    rw [List.map_cons, List.nodup_cons] at hn
    rcases List.mem_cons.1 h with rfl | h
    · simp
    · rw [List.find?_cons_of_neg, ih h hn.2]
      simp only [decide_eq_true_eq]
      intro ha
      exact hn.1 (List.mem_map.2 ⟨m, h, ha.symm⟩)

theorem uses_eq {ch : Chance} {name : String} {env : Env ℝ} {s : Setup ℝ (Tensor ℝ) MethodErr} (h : Uses ch name env s) (m : Method)
    (hm : m ∈ registry ch) (hn : m.name = name.toList) : env.params = m.params ∧ env.tensorParams = m.tensorParams ∧ s.method = m.task := by
  obtain ⟨m', h1, h2⟩ := h
  rw [← hn, getMethod_mem ch m hm, Option.some.injEq] at h1
  subst h1
  exact h2

theorem mem_static (ch : Chance) (m : Method) (h : m ∈ staticMethods ch) : m ∈ registry ch := by
  rw [registry_eq]; exact List.mem_append_left _ h

theorem mem_decorated (ch : Chance) (m : Method) (h : m ∈ decoratedMethods ch) : m ∈ registry ch := by
  rw [registry_eq]; exact List.mem_append_right _ h

/-! ## Running decorated methods -/

section
variable {M V P : Type} [DecidableEq M]

theorem lookup_own (ts : List (M × V)) (hn : (ts.map Prod.fst).Nodup) (e : M × V) (he : e ∈ ts) : Merge.lookup ts e.1 = some e.2 := by
  unfold Merge.lookup
  induction ts with
  | nil => cases he
  | cons a ts ih =>
    rw [List.map_cons, List.nodup_cons] at hn
    rcases List.mem_cons.1 he with rfl | he
    · simp
    · rw [List.find?_cons_of_neg, ih hn.2 he]
      simp only [decide_eq_true_eq]
      intro ha
      exact hn.1 (List.mem_map.2 ⟨e, he, ha.symm⟩)

theorem easyRefs_base (sig : Merge.Signature) (hu : sig.useBase = true) (order : List M) (base : Option M) :
    Merge.easyRefs sig order base = order.filter (fun m => decide (some m ≠ base)) := by
  unfold Merge.easyRefs Merge.easyBase
  rw [hu]
  simp only [Bool.or_true, if_true]
  cases base with
  | none => simp
  | some b =>
    simp only
    split
    · simp
    · rename_i hb
      symm
      rw [List.filter_eq_self]
      intro m hm
      have : m ≠ b := fun h => hb (h ▸ hm)
      simpa using this

/-- With a base tensor argument, the function gets the other models' tensors with their values, in some order. -/
theorem easy_run (sig : Merge.Signature) (hu : sig.useBase = true) (order : List M) (base : Option M) (ts : List (M × V)) (param : M → Option P)
    (hperm : order.Perm (ts.map Prod.fst)) (hn : (ts.map Prod.fst).Nodup) (pv : M → P)
    (hp : ∀ m ∈ ts.map Prod.fst, some m ≠ base → param m = some (pv m))
    (hreq : sig.requireBase = true → ∃ x, base.bind (Merge.lookup ts) = some x) :
    ∃ es : List (M × V), es.Perm (ts.filter (fun e => decide (some e.1 ≠ base))) ∧
      Merge.easyExecute sig order base ts param = .ok (es.map Prod.fst, es.map Prod.snd, base.bind (Merge.lookup ts), es.map (fun e => pv e.1)) := by
  by_cases hts : ts = []
  · subst hts
    simp only [List.map_nil, List.perm_nil] at hperm
    subst hperm
    refine ⟨[], .refl _, ?_⟩
    unfold Merge.easyExecute Merge.easyBaseTensor Merge.easyBase
    rw [easyRefs_base sig hu, hu]
    simp only [List.filter_nil, List.mapM_nil, Bool.or_true, if_true, Bool.true_and, Option.pure_def]
    rw [if_neg]
    · rfl
    · intro h
      rw [Bool.and_eq_true] at h
      obtain ⟨x, hx⟩ := hreq h.1
      rw [hx] at h
      simp at h
  · obtain ⟨e0, l, rfl⟩ : ∃ e l, ts = e :: l := by
      cases ts with
      | nil => exact absurd rfl hts
      | cons e l => exact ⟨e, l, rfl⟩
    generalize hT : e0 :: l = ts at *
    let get : M → V := fun m => (Merge.lookup ts m).getD e0.2
    have hget : ∀ m ∈ ts.map Prod.fst, Merge.lookup ts m = some (get m) := by
      intro m hm
      obtain ⟨e, he, rfl⟩ := List.mem_map.1 hm
      simp [get, lookup_own ts hn e he]
    let refs := order.filter (fun m => decide (some m ≠ base))
    have hrefs : ∀ m ∈ refs, m ∈ ts.map Prod.fst ∧ some m ≠ base := by
      intro m hm
      obtain ⟨h1, h2⟩ := List.mem_filter.1 hm
      exact ⟨hperm.mem_iff.1 h1, by simpa using h2⟩
    have hmap : ∀ {B : Type} (f : M → Option B) (g : M → B) (l : List M), (∀ m ∈ l, f m = some (g m)) → l.mapM f = some (l.map g) := by
      intro B f g l
      induction l with
      | nil => intro _; rfl
      | cons a l ih =>
        intro h
        rw [List.mapM_cons, h a (by simp), ih (fun m hm => h m (by simp [hm]))]
        rfl
    refine ⟨refs.map (fun m => (m, get m)), ?_, ?_⟩
    · have h1 : refs.Perm ((ts.map Prod.fst).filter (fun m => decide (some m ≠ base))) := hperm.filter _
      refine (h1.map _).trans ?_
      rw [List.filter_map, List.map_map]
      have : (ts.filter ((fun m => decide (some m ≠ base)) ∘ Prod.fst)).map ((fun m => (m, get m)) ∘ Prod.fst) =
          (ts.filter ((fun m => decide (some m ≠ base)) ∘ Prod.fst)).map id := by
        refine List.map_congr_left (fun e he => ?_)
        have := lookup_own ts hn e (List.mem_filter.1 he).1
        simp [get, this]
      rw [this, List.map_id]
      exact .refl _
    · unfold Merge.easyExecute Merge.easyBaseTensor Merge.easyBase
      rw [easyRefs_base sig hu, hu]
      rw [hmap (Merge.lookup ts) get refs (fun m hm => hget m (hrefs m hm).1)]
      simp only [Bool.or_true, if_true, Bool.true_and]
      rw [if_neg, hmap param pv refs (fun m hm => hp m (hrefs m hm).1 (hrefs m hm).2)]
      · simp [List.map_map, Function.comp_def, refs]
      · intro h
        rw [Bool.and_eq_true] at h
        obtain ⟨x, hx⟩ := hreq h.1
        rw [hx] at h
        simp at h

end

/-- A decorated method with a required base and no parameters for models. -/
theorem required_run (ch : Chance) (horder : ∀ name l, (ch.order name l).Perm l)
    (func : View ℝ → List (Tensor ℝ) → Option (Tensor ℝ) → List ℝ → Except MethodErr (Option (Tensor ℝ))) (v : View ℝ)
    (own : Ref → WeightInfo → Tensor ℝ) (ins : List (Ref × WeightInfo)) (hn : (ins.map Prod.fst).Nodup) (b : Ref) (wb : WeightInfo)
    (hb : v.base = some b) (hmem : (b, wb) ∈ ins) :
    ∃ xs ps, xs.Perm (allBut b own ins) ∧
      decoratedMethod ⟨true, true, false⟩ none ch func v (ins.map (fun i => (i.1, own i.1 i.2))) = func v xs (some (own b wb)) ps := by
  have hn' : ((ins.map (fun i => (i.1, own i.1 i.2))).map Prod.fst).Nodup := by
    rw [List.map_map]; exact hn
  have hlk : Merge.lookup (ins.map (fun i => (i.1, own i.1 i.2))) b = some (own b wb) :=
    lookup_own _ hn' (b, own b wb) (List.mem_map.2 ⟨(b, wb), hmem, rfl⟩)
  obtain ⟨es, hes, hrun⟩ := easy_run ⟨true, true, false⟩ rfl (ch.order v.weight.name ((ins.map (fun i => (i.1, own i.1 i.2))).map Prod.fst)) v.base
    (ins.map (fun i => (i.1, own i.1 i.2))) (fun _ => some (0 : ℝ)) (horder _ _) hn' (fun _ => 0) (fun _ _ _ => rfl)
    (fun _ => ⟨_, by rw [hb]; exact hlk⟩)
  refine ⟨es.map Prod.snd, es.map (fun _ => 0), ?_, ?_⟩
  · refine (hes.map _).trans ?_
    rw [hb, List.filter_map, List.map_map]
    unfold allBut
    refine List.Perm.of_eq ?_
    congr 1
    refine List.filter_congr (fun i _ => ?_)
    simp
  · unfold decoratedMethod
    rw [if_neg (by rw [hb]; simp)]
    simp only
    rw [hrun]
    simp only
    rw [hb, Option.bind_some, hlk]

/-! ## The methods -/

section
variable (ch : Chance) (horder : ∀ name l, (ch.order name l).Perm l) (env : Env ℝ) (c : MergeConfig ℝ) (l : List (String × OutModule ℝ))
  (hl : Sections env c l) (hu : Usable env l) (s : Setup ℝ (Tensor ℝ) MethodErr) (own : Ref → WeightInfo → Tensor ℝ)

theorem changedAt_perm {ts ts' : List (Tensor ℝ)} (h : ts.Perm ts') (epsilon : ℝ) (base : Tensor ℝ) (i : Nat) :
    (Merge.changedAt epsilon base ts i).Perm (Merge.changedAt epsilon base ts' i) := h.filter _

/-- RAM at every position: where no model changed the base, the base; where one did, its value; where several did, the mean of theirs. -/
def Reinforced (base : Tensor ℝ) (others : List (Tensor ℝ)) (epsilon : ℝ) (y : Tensor ℝ) : Prop :=
  y.shape = base.shape ∧ ∀ i,
    (Merge.changedAt epsilon base others i = [] → y.get i = base.get i) ∧
    (∀ x, Merge.changedAt epsilon base others i = [x] → y.get i = x.get i) ∧
    (2 ≤ (Merge.changedAt epsilon base others i).length →
      y.get i = ((Merge.changedAt epsilon base others i).map (fun x => x.get i)).sum / (Merge.changedAt epsilon base others i).length)

include horder hl hu in
/-- **C113** RAM.  (All tensors of a place have the shape of the base's.) -/
theorem C113_ram (huse : Uses ch "ram" env s)
    (h : ∀ e ∈ l, ∀ w sl t ins, Place env e.1 (e.2.slices.getD []) w sl t ins → ¬ LeftOut env w ins → Fed s own w ins ∧
      ∃ b wb epsilon, BaseIs c sl b ∧ (b, wb) ∈ ins ∧ Counts c e.2 sl w.name t "epsilon" (.num (1 / 100000)) (.num epsilon) ∧
        ∀ i ∈ ins, (own i.1 i.2).shape = (own b wb).shape) :
    Delivers env c l s (fun e w sl t ins z => ∃ y, (∃ b wb epsilon, BaseIs c sl b ∧ (b, wb) ∈ ins ∧
      Counts c e.2 sl w.name t "epsilon" (.num (1 / 100000)) (.num epsilon) ∧ Reinforced (own b wb) (allBut b own ins) epsilon y) ∧ Stored s w y z) := by
  obtain ⟨hp, htp, hm⟩ := uses_eq huse ⟨"ram".toList, _, _, _⟩ (mem_decorated ch _ (List.mem_cons_of_mem _ (List.mem_cons_of_mem _ (List.mem_cons_self ..)))) rfl
  simp only at hp htp hm
  refine method_delivers env (by rw [hp]; simp) (by rw [htp]; simp) c l hl hu s (ramMethod ch) (fun p ts => by rw [hm]) own _ ?_
  intro e he w sl t ins hpl hno hnd hsrc
  obtain ⟨⟨hloads, htype⟩, b, wb, epsilon, hb, hbi, heps, hshape⟩ := h e he w sl t ins hpl hno
  refine ⟨hloads, htype, ?_, ?_, ?_⟩
  · intro q hq
    rw [hp, List.mem_singleton] at hq
    subst hq
    obtain ⟨x, hx, _⟩ := heps
    exact ⟨x, hx, by simp⟩
  · intro i hi src hs hmod q hq
    rw [htp] at hq
    cases hq
  · intro v hv
    obtain ⟨xs, ps, hxs, hrun⟩ := required_run ch horder ramFunc v own ins hnd b wb ((hv.base b).2 hb) hbi
    have hval := seen_told hv (by rw [hp]; simp) heps
    obtain ⟨y, h1, h2, h3⟩ := Merge.C46_ram xs (own b wb) epsilon (by
      intro x hx
      obtain ⟨i, hi, rfl⟩ := List.mem_map.1 (hxs.mem_iff.1 hx)
      exact hshape i (List.mem_filter.1 hi).1)
    refine ⟨y, ?_, b, wb, epsilon, hb, hbi, heps, h2, fun i => ?_⟩
    · rw [ramMethod, hrun]
      simp only [ramFunc, hval, asNumber, h1, given]
    · have hperm := changedAt_perm hxs epsilon (own b wb) i
      obtain ⟨h4, h5, h6⟩ := h3 i
      refine ⟨fun h => h4 (by rw [h] at hperm; exact hperm.eq_nil), fun x h => h5 x (by rw [h] at hperm; exact List.perm_singleton.1 hperm), fun h => ?_⟩
      rw [← hperm.length_eq] at h ⊢
      rw [h6 h, (hperm.map _).sum_eq]

include hl hu in
/-- A method of the registry at work. -/
theorem registered {name : String} (huse : Uses ch name env s) (ps tps : List (ParamDef ℝ))
    (f : View ℝ → List (Ref × Tensor ℝ) → Except MethodErr (Option (Tensor ℝ)))
    (hmem : (⟨name.toList, ps, tps, fun p => f (viewOf p)⟩ : Method) ∈ registry ch)
    (hpn : (ps.map (·.name)).Nodup) (htn : (tps.map (·.name)).Nodup)
    (good : String × OutModule ℝ → WeightInfo → OutSlice ℝ → ℝ → List (Ref × WeightInfo) → Tensor ℝ → Prop)
    (h : env.params = ps → env.tensorParams = tps → ∀ e ∈ l, ∀ w sl t ins, Place env e.1 (e.2.slices.getD []) w sl t ins → ¬ LeftOut env w ins →
      (ins.map Prod.fst).Nodup → (∀ i ∈ ins, ∃ src ∈ sl.sources, src.model = i.1) →
      Fed s own w ins ∧
      (∀ q ∈ ps, ∃ x, Reads w.name t [sl.parameters.get q.name, e.2.parameters.get q.name, c.parameters.get q.name] x ∧
        (q.required = true → x ≠ none)) ∧
      (∀ i ∈ ins, ∀ src ∈ sl.sources, src.model = i.1 → ∀ q ∈ tps, ∃ x,
        Reads i.2.name t [src.parameters.get q.name, sl.parameters.get q.name, e.2.parameters.get q.name, c.parameters.get q.name] x ∧
        (q.required = true → x ≠ none ∨ BaseIs c sl i.1)) ∧
      ∀ v, SeenAt env c e.2 w sl t ins v → ∃ y, f v (ins.map (fun i => (i.1, own i.1 i.2))) = .ok (some y) ∧ good e w sl t ins y) :
    Delivers env c l s (fun e w sl t ins z => ∃ y, good e w sl t ins y ∧ Stored s w y z) := by
  obtain ⟨hp, htp, hm⟩ := uses_eq huse _ hmem rfl
  simp only at hp htp hm
  refine method_delivers env (by rw [hp]; exact hpn) (by rw [htp]; exact htn) c l hl hu s f (fun p ts => by rw [hm]) own _ ?_
  intro e he w sl t ins hpl hno hnd hsrc
  obtain ⟨⟨hloads, htype⟩, h1, h2, h3⟩ := h hp htp e he w sl t ins hpl hno hnd hsrc
  exact ⟨hloads, htype, by rw [hp]; exact h1, by rw [htp]; exact h2, h3⟩

theorem same_ok {a a' : Except Tensor.Err (Tensor ℝ)} (h : Merge.SameOutcome a a') {y' : Tensor ℝ} (hy : a' = .ok y') :
    ∃ y, a = .ok y ∧ y.shape = y'.shape ∧ ∀ i, y.get i = y'.get i := by
  cases h with
  | fails e e' => cases hy
  | gives r r' hs hg => cases hy; exact ⟨r, rfl, hs, hg⟩

/-- RAM+ at every position: as RAM, but what only one model changed is multiplied. -/
def ReinforcedPlus (base : Tensor ℝ) (others : List (Tensor ℝ)) (r alpha epsilon : ℝ) (y : Tensor ℝ) : Prop :=
  y.shape = base.shape ∧ ∀ i < base.numel,
    (Merge.changedAt epsilon base others i = [] → y.get i = base.get i) ∧
    (∀ x, Merge.changedAt epsilon base others i = [x] → y.get i = base.get i +
      (1 + r * min ((Merge.sharedCount epsilon base others x : ℝ) / (Merge.uniqueCount epsilon base others x : ℝ)) alpha) * (x.get i - base.get i)) ∧
    (2 ≤ (Merge.changedAt epsilon base others i).length →
      y.get i = ((Merge.changedAt epsilon base others i).map (fun x => x.get i)).sum / (Merge.changedAt epsilon base others i).length)

/-- The settings of RAM+ at a place. -/
structure RamPlusAt (c : MergeConfig ℝ) (d : OutModule ℝ) (w : WeightInfo) (sl : OutSlice ℝ) (t : ℝ) (ins : List (Ref × WeightInfo)) (b : Ref)
    (wb : WeightInfo) (r alpha epsilon : ℝ) : Prop where
  base : BaseIs c sl b
  mem : (b, wb) ∈ ins
  r : Counts c d sl w.name t "r" (.num (1 / 10)) (.num r)
  alpha : Counts c d sl w.name t "alpha" (.num (2 / 10)) (.num alpha)
  epsilon : Counts c d sl w.name t "epsilon" (.num (1 / 100000)) (.num epsilon)

include horder hl hu in
/-- **C113** RAM+. -/
theorem C113_ramplus (huse : Uses ch "ramplus_tl" env s)
    (h : ∀ e ∈ l, ∀ w sl t ins, Place env e.1 (e.2.slices.getD []) w sl t ins → ¬ LeftOut env w ins → Fed s own w ins ∧
      ∃ b wb r alpha epsilon, RamPlusAt c e.2 w sl t ins b wb r alpha epsilon ∧ 0 < epsilon ∧ epsilon ≤ 1 ∧ 0 ≤ alpha ∧
        ∀ i ∈ ins, (own i.1 i.2).shape = (own b wb).shape) :
    Delivers env c l s (fun e w sl t ins z => ∃ y, (∃ b wb r alpha epsilon, RamPlusAt c e.2 w sl t ins b wb r alpha epsilon ∧
      ReinforcedPlus (own b wb) (allBut b own ins) r alpha epsilon y) ∧ Stored s w y z) := by
  refine registered ch env c l hl hu s own huse _ _ (ramplusMethod ch)
    (mem_decorated ch _ (List.mem_cons_of_mem _ (List.mem_cons_of_mem _ (List.mem_cons_of_mem _ (List.mem_cons_self ..)))))
    (by simp only [List.map_cons, List.map_nil]; decide +kernel) (by simp) _ ?_
  intro hp htp e he w sl t ins hpl hno hnd hsrc
  obtain ⟨hfed, b, wb, r, alpha, epsilon, hset, he0, he1, ha, hshape⟩ := h e he w sl t ins hpl hno
  refine ⟨hfed, ?_, by simp, ?_⟩
  · obtain ⟨_, _, ⟨x1, h1, _⟩, ⟨x2, h2, _⟩, ⟨x3, h3, _⟩⟩ := hset
    intro q hq
    simp only [List.mem_cons, List.not_mem_nil, or_false] at hq
    rcases hq with rfl | rfl | rfl
    · exact ⟨x1, h1, by simp⟩
    · exact ⟨x2, h2, by simp⟩
    · exact ⟨x3, h3, by simp⟩
  · intro v hv
    obtain ⟨xs, ps, hxs, hrun⟩ := required_run ch horder ramplusFunc v own ins hnd b wb ((hv.base b).2 hset.base) hset.mem
    have hv1 := seen_told hv (by rw [hp]; simp) hset.r
    have hv2 := seen_told hv (by rw [hp]; simp) hset.alpha
    have hv3 := seen_told hv (by rw [hp]; simp) hset.epsilon
    have hsh : ∀ x ∈ allBut b own ins, x.shape = (own b wb).shape := by
      intro x hx
      obtain ⟨i, hi, rfl⟩ := List.mem_map.1 hx
      exact hshape i (List.mem_filter.1 hi).1
    obtain ⟨y', h1, h2, h3⟩ := Merge.C46_ramplus (allBut b own ins) (own b wb) r alpha epsilon hsh he0 he1 ha
    obtain ⟨y, h4, h5, h6⟩ := same_ok (Merge.C105_ramplus xs _ (own b wb) r alpha epsilon hxs) h1
    obtain ⟨x, hx, _, hx3⟩ := Merge.C46_ram (allBut b own ins) (own b wb) epsilon hsh
    refine ⟨y, ?_, b, wb, r, alpha, epsilon, hset, h5.trans h2, fun i hi => ?_⟩
    · rw [ramplusMethod, hrun]
      simp only [ramplusFunc, hv1, hv2, hv3, asNumber, h4, given]
    · obtain ⟨ha1, ha2, ha3⟩ := h3 i hi
      rw [h6]
      refine ⟨ha1, ha2, fun hlen => ?_⟩
      obtain ⟨x', hx', hy'⟩ := ha3 hlen
      rw [hx] at hx'
      cases hx'
      rw [hy']
      exact (hx3 i).2.2 hlen

/-- SCE at every position: the base plus the weighted mean of the selected changes of the models that agree with the sign of the sum. -/
def Selected (topk : (Nat → ℝ) → Nat → List Nat) (base : Tensor ℝ) (others : List (Tensor ℝ)) (sel : ℝ) (y : Tensor ℝ) : Prop :=
  y.shape = base.shape ∧ ∃ S : Nat → Bool,
    (∀ i, S i = true ↔ 1 ≤ sel ∨ i ∈ topk (fun i => |Merge.spread (others.map (fun x => x.get i - base.get i))|)
      ⌊(Merge.varyingCount base others : ℝ) * sel⌋.toNat) ∧
    ∀ i, y.get i = base.get i +
      ((Merge.sceAgree base S others i).map (fun x => Merge.sceShare base S others x * Merge.selectedChange base S x i)).sum /
        max ((Merge.sceAgree base S others i).map (Merge.sceShare base S others)).sum (1 / 1000000)

include horder hl hu in
/-- **C113** SCE, where at least one entry is selected. -/
theorem C113_sce (huse : Uses ch "sce" env s)
    (h : ∀ e ∈ l, ∀ w sl t ins, Place env e.1 (e.2.slices.getD []) w sl t ins → ¬ LeftOut env w ins → Fed s own w ins ∧
      ∃ b wb sel, BaseIs c sl b ∧ (b, wb) ∈ ins ∧ (∃ x, Counts c e.2 sl w.name t "int8_mask" (.num 0) x) ∧
        Counts c e.2 sl w.name t "select_topk" (.num 1) (.num sel) ∧ allBut b own ins ≠ [] ∧
        (1 ≤ sel ∨ (0 < sel ∧ 1 ≤ ⌊(Merge.varyingCount (own b wb) (allBut b own ins) : ℝ) * sel⌋)) ∧
        ∀ i ∈ ins, (own i.1 i.2).shape = (own b wb).shape) :
    Delivers env c l s (fun e w sl t ins z => ∃ y, (∃ b wb sel, BaseIs c sl b ∧ (b, wb) ∈ ins ∧
      Counts c e.2 sl w.name t "select_topk" (.num 1) (.num sel) ∧ Selected (ch.topk w.name) (own b wb) (allBut b own ins) sel y) ∧ Stored s w y z) := by
  refine registered ch env c l hl hu s own huse _ _ (sceMethod ch)
    (mem_decorated ch _ (List.mem_cons_of_mem _ (List.mem_cons_of_mem _ (List.mem_cons_of_mem _ (List.mem_cons_of_mem _ (List.mem_cons_self ..))))))
    (by simp only [List.map_cons, List.map_nil]; decide +kernel) (by simp) _ ?_
  intro hp htp e he w sl t ins hpl hno hnd hsrc
  obtain ⟨hfed, b, wb, sel, hb, hbi, ⟨m, hmask⟩, hsel, hne, hcond, hshape⟩ := h e he w sl t ins hpl hno
  refine ⟨hfed, ?_, by simp, ?_⟩
  · obtain ⟨x1, h1, _⟩ := hmask
    obtain ⟨x2, h2, _⟩ := hsel
    intro q hq
    simp only [List.mem_cons, List.not_mem_nil, or_false] at hq
    rcases hq with rfl | rfl
    · exact ⟨x1, h1, by simp⟩
    · exact ⟨x2, h2, by simp⟩
  · intro v hv
    obtain ⟨xs, ps, hxs, hrun⟩ := required_run ch horder (sceFunc ch) v own ins hnd b wb ((hv.base b).2 hb) hbi
    have hv1 := seen_told hv (by rw [hp]; simp) hsel
    have hsh : ∀ x ∈ allBut b own ins, x.shape = (own b wb).shape := by
      intro x hx
      obtain ⟨i, hi, rfl⟩ := List.mem_map.1 hx
      exact hshape i (List.mem_filter.1 hi).1
    obtain ⟨y', S, h1, h2, h3, h7⟩ := Merge.C45_value_partial (ch.topk w.name) (allBut b own ins) (own b wb) sel hne hsh hcond
    obtain ⟨y, h4, h5, h6⟩ := same_ok (Merge.C105_sce (ch.topk w.name) xs _ (own b wb) sel hxs) h1
    refine ⟨y, ?_, b, wb, sel, hb, hbi, hsel, h5.trans h2, S, h3, fun i => by rw [h6, h7]⟩
    rw [sceMethod, hrun]
    simp only [sceFunc, hv1, asNumber, hv.weight, h4, given]

/-- Nearswap at every position: between the base and the other model, not further than `t` from the base; and the other model's value where it is
within `t` of the base. -/
def Neared (base other : Tensor ℝ) (t : ℝ) (y : Tensor ℝ) : Prop :=
  y.shape = base.shape ∧ ∀ i, |y.get i - base.get i| ≤ t ∧ min (base.get i) (other.get i) ≤ y.get i ∧ y.get i ≤ max (base.get i) (other.get i) ∧
    (1 / 1000000 ≤ t → |base.get i - other.get i| ≤ t → y.get i = other.get i)

theorem allBut_one {own : Ref → WeightInfo → Tensor ℝ} {ins : List (Ref × WeightInfo)} {b m : Ref} {wb wm : WeightInfo} (hnd : (ins.map Prod.fst).Nodup)
    (h : ins.Perm [(b, wb), (m, wm)]) : m ≠ b ∧ (allBut b own ins).Perm [own m wm] := by
  have hne : m ≠ b := by
    have := (h.map Prod.fst).nodup_iff.1 hnd
    simp only [List.map_cons, List.map_nil, List.nodup_cons, List.mem_singleton] at this
    exact fun h => this.1 h.symm
  refine ⟨hne, ?_⟩
  unfold allBut
  refine ((h.filter _).map _).trans ?_
  rw [List.filter_cons_of_neg (by simp), List.filter_cons_of_pos (by simpa using hne), List.filter_nil]
  exact .refl _

include horder hl hu in
/-- **C113** Nearswap of two models. -/
theorem C113_nearswap (huse : Uses ch "nearswap" env s)
    (h : ∀ e ∈ l, ∀ w sl t ins, Place env e.1 (e.2.slices.getD []) w sl t ins → ¬ LeftOut env w ins → Fed s own w ins ∧
      ∃ b wb m wm x, BaseIs c sl b ∧ ins.Perm [(b, wb), (m, wm)] ∧ Says c e.2 sl w.name t "t" (some (.num x)) ∧ 0 ≤ x ∧
        (own b wb).shape = (own m wm).shape) :
    Delivers env c l s (fun e w sl t ins z => ∃ y, (∃ b wb m wm x, BaseIs c sl b ∧ ins.Perm [(b, wb), (m, wm)] ∧
      Says c e.2 sl w.name t "t" (some (.num x)) ∧ Neared (own b wb) (own m wm) x y) ∧ Stored s w y z) := by
  refine registered ch env c l hl hu s own huse _ _ (nearswapMethod ch)
    (mem_decorated ch _ (List.mem_cons_of_mem _ (List.mem_cons_self ..))) (by simp) (by simp) _ ?_
  intro hp htp e he w sl t ins hpl hno hnd hsrc
  obtain ⟨hfed, b, wb, m, wm, x, hb, hins, ht, hx, hshape⟩ := h e he w sl t ins hpl hno
  refine ⟨hfed, ?_, by simp, ?_⟩
  · intro q hq
    rw [List.mem_singleton] at hq
    subst hq
    exact ⟨_, ht, by simp⟩
  · intro v hv
    obtain ⟨xs, ps, hxs, hrun⟩ := required_run ch horder nearswapFunc v own ins hnd b wb ((hv.base b).2 hb) (hins.mem_iff.2 (by simp))
    have hxs1 : xs = [own m wm] := List.perm_singleton.1 (hxs.trans (allBut_one hnd hins).2)
    subst hxs1
    have hv1 := seen_required hv (by rw [hp]; simp) ht
    obtain ⟨y, h1, h2, h3⟩ := Merge.C41_moves_at_most (own b wb) (own m wm) x hx hshape
    refine ⟨y, ?_, b, wb, m, wm, x, hb, hins, ht, h2, fun i => ?_⟩
    · rw [nearswapMethod, hrun]
      simp only [nearswapFunc, hv1, asNumber, h1, given]
    · obtain ⟨h4, h5, h6⟩ := h3 i
      refine ⟨h4, h5, h6, fun h7 h8 => ?_⟩
      obtain ⟨y', h9, h10⟩ := Merge.C41_swaps_near_partial (own b wb) (own m wm) x h7 hshape
      rw [h1] at h9
      cases h9
      exact h10 i h8

/-- The two switches of NuSLERP. -/
structure NuslerpAt (c : MergeConfig ℝ) (d : OutModule ℝ) (w : WeightInfo) (sl : OutSlice ℝ) (t : ℝ) (rowWise flatten : Bool) : Prop where
  rowWise : Counts c d sl w.name t "nuslerp_row_wise" (yes false) (yes rowWise)
  flatten : Counts c d sl w.name t "nuslerp_flatten" (yes true) (yes flatten)

theorem mem_nuslerp : (⟨"nuslerp".toList, [⟨"nuslerp_row_wise".toList, false, some (yes false)⟩, ⟨"nuslerp_flatten".toList, false, some (yes true)⟩],
    [⟨"weight".toList, true, none⟩], fun p => nuslerpMethod (viewOf p)⟩ : Method) ∈ registry ch :=
  mem_static ch _ (List.mem_append_left _ (List.mem_cons_of_mem _ (List.mem_cons_of_mem _ (List.mem_cons_self ..))))

theorem weightIs_reads {c : MergeConfig ℝ} {d : OutModule ℝ} {sl : OutSlice ℝ} {t : ℝ} {i : Ref × WeightInfo} {x : ℝ} (h : WeightIs c d sl t i x)
    (hn : (sl.sources.map (·.model)).Nodup) (src : InSlice ℝ) (hs : src ∈ sl.sources) (hm : src.model = i.1) :
    SaysOf c d sl src i.2.name t "weight" (some (.num x)) := by
  obtain ⟨src', hs', hm', h⟩ := h
  have : src = src' := by
    have hinj := List.inj_on_of_nodup_map hn
    exact hinj hs hs' (hm.trans hm'.symm)
  subst this
  exact h

include hl hu in
/-- **C113** NuSLERP of two models, no base model given. -/
theorem C113_nuslerp (huse : Uses ch "nuslerp" env s)
    (h : ∀ e ∈ l, ∀ w sl t ins, Place env e.1 (e.2.slices.getD []) w sl t ins → ¬ LeftOut env w ins → Fed s own w ins ∧ (∀ b, ¬ BaseIs c sl b) ∧
      ∃ i j wi wj rowWise flatten, ins = [i, j] ∧ WeightIs c e.2 sl t i wi ∧ WeightIs c e.2 sl t j wj ∧ NuslerpAt c e.2 w sl t rowWise flatten ∧
        (own i.1 i.2).shape = (own j.1 j.2).shape) :
    Delivers env c l s (fun e w sl t ins z => ∃ y, (∃ i j wi wj rowWise flatten, ins = [i, j] ∧ WeightIs c e.2 sl t i wi ∧ WeightIs c e.2 sl t j wj ∧
      NuslerpAt c e.2 w sl t rowWise flatten ∧ y.shape = (own i.1 i.2).shape ∧
      ∀ k, y.get k = Sphere.interpolated flatten rowWise (own i.1 i.2).shape (Sphere.share wi wj) (own i.1 i.2).get (own j.1 j.2).get k) ∧
        Stored s w y z) := by
  refine registered ch env c l hl hu s own huse _ _ nuslerpMethod (mem_nuslerp ch)
    (by simp only [List.map_cons, List.map_nil]; decide +kernel) (by simp) _ ?_
  intro hp htp e he w sl t ins hpl hno hnd hsrc
  have hsn : (sl.sources.map (·.model)).Nodup := hu.once e he sl hpl.models.1
  obtain ⟨hfed, hnb, i, j, wi, wj, rowWise, flatten, rfl, hi, hj, hset, hshape⟩ := h e he w sl t ins hpl hno
  refine ⟨hfed, ?_, ?_, ?_⟩
  · obtain ⟨⟨x1, h1, _⟩, ⟨x2, h2, _⟩⟩ := hset
    intro q hq
    simp only [List.mem_cons, List.not_mem_nil, or_false] at hq
    rcases hq with rfl | rfl
    · exact ⟨x1, h1, by simp⟩
    · exact ⟨x2, h2, by simp⟩
  · intro k hk src hs hm q hq
    rw [List.mem_singleton] at hq
    subst hq
    simp only [List.mem_cons, List.not_mem_nil, or_false] at hk
    rcases hk with rfl | rfl
    · exact ⟨_, weightIs_reads hi hsn src hs hm, by simp⟩
    · exact ⟨_, weightIs_reads hj hsn src hs hm, by simp⟩
  · intro v hv
    have hv1 := seen_told hv (by rw [hp]; simp) hset.rowWise
    have hv2 := seen_told hv (by rw [hp]; simp) hset.flatten
    have hv3 := seen_weight hv (by rw [htp]; simp) (i := i) (by simp) hi
    have hv4 := seen_weight hv (by rw [htp]; simp) (i := j) (by simp) hj
    have hb := seen_noBase hv hnb
    obtain ⟨y, h1, h2, h3⟩ := Sphere.C69_two_models w.isEmbed flatten rowWise (fun m => (asNumber (v.valueOf m "weight".toList)).getD 0) i.1 j.1
      (own i.1 i.2) (own j.1 j.2) hshape
    refine ⟨y, ?_, i, j, wi, wj, rowWise, flatten, rfl, hi, hj, hset, h2, fun k => ?_⟩
    · unfold nuslerpMethod
      rw [hv1, hv2, asBool_yes, asBool_yes]
      simp only
      rw [if_pos, hb, hv.weight]
      · simp only [List.map_cons, List.map_nil, h1, given]
      · right
        rw [List.all_eq_true]
        intro k hk
        obtain ⟨k', hk', rfl⟩ := List.mem_map.1 hk
        simp only [List.mem_cons, List.not_mem_nil, or_false] at hk'
        rcases hk' with rfl | rfl
        · exact Bool.or_eq_true_iff.2 (Or.inr (by rw [hv3]; rfl))
        · exact Bool.or_eq_true_iff.2 (Or.inr (by rw [hv4]; rfl))
    · rw [h3, hv3, hv4]
      rfl

include hl hu in
/-- **C113** NuSLERP of the changes that two models make to a base model. -/
theorem C113_nuslerp_base (huse : Uses ch "nuslerp" env s)
    (h : ∀ e ∈ l, ∀ w sl t ins, Place env e.1 (e.2.slices.getD []) w sl t ins → ¬ LeftOut env w ins → Fed s own w ins ∧
      ∃ b i j wi wj rowWise flatten, BaseIs c sl b.1 ∧ (ins = [b, i, j] ∨ ins = [i, b, j] ∨ ins = [i, j, b]) ∧ WeightIs c e.2 sl t i wi ∧
        WeightIs c e.2 sl t j wj ∧ (∀ src ∈ sl.sources, src.model = b.1 → ∃ x, SaysOf c e.2 sl src b.2.name t "weight" x) ∧
        NuslerpAt c e.2 w sl t rowWise flatten ∧ (own i.1 i.2).shape = (own b.1 b.2).shape ∧ (own j.1 j.2).shape = (own b.1 b.2).shape) :
    Delivers env c l s (fun e w sl t ins z => ∃ y, (∃ b i j wi wj rowWise flatten, BaseIs c sl b.1 ∧
      (ins = [b, i, j] ∨ ins = [i, b, j] ∨ ins = [i, j, b]) ∧ WeightIs c e.2 sl t i wi ∧ WeightIs c e.2 sl t j wj ∧
      NuslerpAt c e.2 w sl t rowWise flatten ∧ y.shape = (own b.1 b.2).shape ∧
      ∀ k, y.get k = (own b.1 b.2).get k + Sphere.interpolated flatten rowWise (own b.1 b.2).shape (Sphere.share wi wj)
        (fun k => (own i.1 i.2).get k - (own b.1 b.2).get k) (fun k => (own j.1 j.2).get k - (own b.1 b.2).get k) k) ∧ Stored s w y z) := by
  refine registered ch env c l hl hu s own huse _ _ nuslerpMethod (mem_nuslerp ch)
    (by simp only [List.map_cons, List.map_nil]; decide +kernel) (by simp) _ ?_
  intro hp htp e he w sl t ins hpl hno hnd hsrc
  have hsn : (sl.sources.map (·.model)).Nodup := hu.once e he sl hpl.models.1
  obtain ⟨hfed, b, i, j, wi, wj, rowWise, flatten, hb, hins, hi, hj, hbw, hset, hsi, hsj⟩ := h e he w sl t ins hpl hno
  have hmem : ∀ k, k ∈ ins ↔ k = b ∨ k = i ∨ k = j := by
    intro k
    rcases hins with rfl | rfl | rfl <;> simp only [List.mem_cons, List.not_mem_nil, or_false] <;> constructor <;> intro h <;>
      rcases h with h | h | h <;> simp [h]
  have hne : i.1 ≠ b.1 ∧ j.1 ≠ b.1 := by
    rcases hins with rfl | rfl | rfl <;> simp only [List.map_cons, List.map_nil, List.nodup_cons, List.mem_cons, List.not_mem_nil, or_false,
      not_or] at hnd
    · exact ⟨fun h => hnd.1.1 h.symm, fun h => hnd.1.2 h.symm⟩
    · exact ⟨hnd.1.1, fun h => hnd.2.1 h.symm⟩
    · exact ⟨hnd.1.2, hnd.2.1⟩
  refine ⟨hfed, ?_, ?_, ?_⟩
  · obtain ⟨⟨x1, h1, _⟩, ⟨x2, h2, _⟩⟩ := hset
    intro q hq
    simp only [List.mem_cons, List.not_mem_nil, or_false] at hq
    rcases hq with rfl | rfl
    · exact ⟨x1, h1, by simp⟩
    · exact ⟨x2, h2, by simp⟩
  · intro k hk src hs hm q hq
    rw [List.mem_singleton] at hq
    subst hq
    rcases (hmem k).1 hk with rfl | rfl | rfl
    · obtain ⟨x, hx⟩ := hbw src hs hm
      exact ⟨x, hx, fun _ => Or.inr hb⟩
    · exact ⟨_, weightIs_reads hi hsn src hs hm, by simp⟩
    · exact ⟨_, weightIs_reads hj hsn src hs hm, by simp⟩
  · intro v hv
    have hv1 := seen_told hv (by rw [hp]; simp) hset.rowWise
    have hv2 := seen_told hv (by rw [hp]; simp) hset.flatten
    have hv3 := seen_weight hv (by rw [htp]; simp) (i := i) ((hmem i).2 (by simp)) hi
    have hv4 := seen_weight hv (by rw [htp]; simp) (i := j) ((hmem j).2 (by simp)) hj
    have hvb := (hv.base b.1).2 hb
    obtain ⟨y, h1, h2, h3⟩ := Sphere.C69_with_base w.isEmbed flatten rowWise (fun m => (asNumber (v.valueOf m "weight".toList)).getD 0) b.1 i.1 j.1
      hne.1 hne.2 (own b.1 b.2) (own i.1 i.2) (own j.1 j.2) hsi hsj (ins.map (fun i => (i.1, own i.1 i.2)))
      (by rcases hins with rfl | rfl | rfl <;> simp)
    refine ⟨y, ?_, b, i, j, wi, wj, rowWise, flatten, hb, hins, hi, hj, hset, h2, fun k => ?_⟩
    · unfold nuslerpMethod
      rw [hv1, hv2, asBool_yes, asBool_yes]
      simp only
      rw [if_pos, hvb, hv.weight]
      · simp only [h1, given]
      · right
        rw [List.all_eq_true]
        intro k hk
        obtain ⟨k', hk', rfl⟩ := List.mem_map.1 hk
        rcases (hmem k').1 hk' with rfl | rfl | rfl
        · simp [hvb]
        · exact Bool.or_eq_true_iff.2 (Or.inr (by rw [hv3]; rfl))
        · exact Bool.or_eq_true_iff.2 (Or.inr (by rw [hv4]; rfl))
    · rw [h3, hv3, hv4]
      rfl

include hl hu in
/-- **C113** Model stock of a base and at least two other models: on the line from the base to the mean of the others, as far as the mean cosine of
their changes says. -/
theorem C113_model_stock (huse : Uses ch "model_stock" env s)
    (h : ∀ e ∈ l, ∀ w sl t ins, Place env e.1 (e.2.slices.getD []) w sl t ins → ¬ LeftOut env w ins → Fed s own w ins ∧
      ∃ b wb filterWise, BaseIs c sl b ∧ (b, wb) ∈ ins ∧ Counts c e.2 sl w.name t "filter_wise" (yes false) (yes filterWise) ∧ 3 ≤ ins.length ∧
        (∀ i ∈ ins, (own i.1 i.2).shape = (own b wb).shape) ∧
        ∀ k < (own b wb).numel, 1 + (((allBut b own ins).length : ℝ) - 1) * Sphere.meanCos (Sphere.stockLine filterWise (own b wb).shape k)
          ((allBut b own ins).map (fun x => fun j => x.get j - (own b wb).get j)) ≠ 0) :
    Delivers env c l s (fun e w sl t ins z => ∃ y, (∃ b wb filterWise, BaseIs c sl b ∧ (b, wb) ∈ ins ∧
      Counts c e.2 sl w.name t "filter_wise" (yes false) (yes filterWise) ∧ y.shape = (own b wb).shape ∧
      ∀ k, y.get k = (own b wb).get k + Sphere.ratio (allBut b own ins).length
          (Sphere.meanCos (Sphere.stockLine filterWise (own b wb).shape k) ((allBut b own ins).map (fun x => fun j => x.get j - (own b wb).get j))) *
        (((allBut b own ins).map (fun x => x.get k)).sum / (allBut b own ins).length - (own b wb).get k)) ∧ Stored s w y z) := by
  refine registered ch env c l hl hu s own huse [⟨"filter_wise".toList, false, some (yes false)⟩] [] modelStockMethod
    (mem_static ch _ (List.mem_append_left _ (List.mem_cons_of_mem _ (List.mem_cons_of_mem _ (List.mem_cons_of_mem _ (List.mem_cons_of_mem _
      (List.mem_cons_self ..))))))) (by simp) (by simp) _ ?_
  intro hp htp e he w sl t ins hpl hno hnd hsrc
  obtain ⟨hfed, b, wb, filterWise, hb, hbi, hset, hlen, hshape, hfin⟩ := h e he w sl t ins hpl hno
  refine ⟨hfed, ?_, by simp, ?_⟩
  · obtain ⟨x1, h1, _⟩ := hset
    intro q hq
    rw [List.mem_singleton] at hq
    subst hq
    exact ⟨x1, h1, by simp⟩
  · intro v hv
    have hv1 := seen_told hv (by rw [hp]; simp) hset
    have hvb := (hv.base b).2 hb
    have hoth : Sphere.others b (ins.map (fun i => (i.1, own i.1 i.2))) = allBut b own ins := by
      unfold Sphere.others allBut
      rw [List.filter_map, List.map_map]
      rfl
    have hC := Sphere.C42_formula w.isEmbed w.optional filterWise b (own b wb) (ins.map (fun i => (i.1, own i.1 i.2)))
      (by rw [List.map_map]; exact hnd) (List.mem_map.2 ⟨(b, wb), hbi, rfl⟩) (by simpa using hlen)
      (by intro x hx; obtain ⟨i, hi, rfl⟩ := List.mem_map.1 hx; exact hshape i hi)
    simp only [hoth] at hC
    obtain ⟨y, h1, h2, h3⟩ := hC.1 hfin
    refine ⟨y, ?_, b, wb, filterWise, hb, hbi, hset, h2, h3⟩
    unfold modelStockMethod
    rw [hv1, asBool_yes, hvb, hv.weight]
    simp only [h1]

include hl hu in
/-- **C113** Arcee fusion of a base and another model: every entry is the base's or the other's, the other's exactly where the score reaches a
threshold, which for tensors of at most a million entries is the median plus one and a half times the distance of the quartiles. -/
theorem C113_arcee_fusion (huse : Uses ch "arcee_fusion" env s)
    (h : ∀ e ∈ l, ∀ w sl t ins, Place env e.1 (e.2.slices.getD []) w sl t ins → ¬ LeftOut env w ins → Fed s own w ins ∧
      ∃ b m, BaseIs c sl b.1 ∧ (ins = [b, m] ∨ ins = [m, b]) ∧ (own b.1 b.2).shape = (own m.1 m.2).shape) :
    Delivers env c l s (fun e w sl t ins z => ∃ y, (∃ b m th, BaseIs c sl b.1 ∧ (ins = [b, m] ∨ ins = [m, b]) ∧ y.shape = (own b.1 b.2).shape ∧
      let score := Sphere.score ((own b.1 b.2).shape.getLastD 1) (own b.1 b.2).get (own m.1 m.2).get
      let n := (own b.1 b.2).numel
      (∀ i, y.get i = if th ≤ score i then (own m.1 m.2).get i else (own b.1 b.2).get i) ∧
      (0 < n → n ≤ 1000000 → ∃ q1 q2 q3, Sphere.IsEntry ((List.range n).map score) ((n - 1) / 4) q1 ∧
        Sphere.IsEntry ((List.range n).map score) ((n - 1) / 2) q2 ∧ Sphere.IsEntry ((List.range n).map score) (3 * (n - 1) / 4) q3 ∧
        th = q2 + 3 / 2 * (q3 - q1))) ∧ Stored s w y z) := by
  refine registered ch env c l hl hu s own huse [] [] (arceeMethod ch)
    (mem_static ch _ (List.mem_append_left _ (List.mem_cons_of_mem _ (List.mem_cons_of_mem _ (List.mem_cons_of_mem _ (List.mem_cons_of_mem _
      (List.mem_cons_of_mem _ (List.mem_cons_self ..)))))))) (by simp) (by simp) _ ?_
  intro hp htp e he w sl t ins hpl hno hnd hsrc
  obtain ⟨hfed, b, m, hb, hins, hshape⟩ := h e he w sl t ins hpl hno
  refine ⟨hfed, by simp, by simp, ?_⟩
  intro v hv
  have hne : m.1 ≠ b.1 := by
    rcases hins with rfl | rfl <;> simp only [List.map_cons, List.map_nil, List.nodup_cons, List.mem_singleton] at hnd
    · exact fun h => hnd.1 h.symm
    · exact hnd.1
  obtain ⟨y, th, h1, h2, h3, h4⟩ := Sphere.C47_picks (ch.sample1 w.name) (ch.sample2 w.name) w.isEmbed b.1 m.1 hne (own b.1 b.2) (own m.1 m.2) hshape
    (ins.map (fun i => (i.1, own i.1 i.2))) (by rcases hins with rfl | rfl <;> simp)
  refine ⟨y, ?_, b, m, th, hb, hins, h2, h3, h4⟩
  unfold arceeMethod
  rw [(hv.base b.1).2 hb, hv.weight]
  simp only [h1, given]

include hl hu in
/-- **C113** The Karcher mean of models that are not negligible, wherever the iteration finds a result: its length is the mean of the lengths. -/
theorem C113_karcher (huse : Uses ch "karcher" env s)
    (h : ∀ e ∈ l, ∀ w sl t ins, Place env e.1 (e.2.slices.getD []) w sl t ins → ¬ LeftOut env w ins → Fed s own w ins ∧
      ∃ (n : Nat) (tol : ℝ) (shape : List Nat), Counts c e.2 sl w.name t "max_iter" (.num 10) (.num n) ∧
        Counts c e.2 sl w.name t "tol" (.num (1 / 100000)) (.num tol) ∧ 0 < tol ∧ tol < 1 ∧ 2 ≤ ins.length ∧
        (∀ i ∈ ins, (own i.1 i.2).shape = shape) ∧ (∃ i ∈ ins, tol < Sphere.normOn (List.range shape.prod) (own i.1 i.2).get) ∧
        ∃ r, Sphere.karcherTask w.isEmbed n tol (ins.map (fun i => (i.1, own i.1 i.2))) = .ok r) :
    Delivers env c l s (fun e w sl t ins z => ∃ y, (∃ shape, (∀ i ∈ ins, (own i.1 i.2).shape = shape) ∧ y.shape = shape ∧
      Sphere.normOn (List.range shape.prod) y.get =
        (ins.map (fun i => Sphere.normOn (List.range shape.prod) (own i.1 i.2).get)).sum / (ins.length : ℝ)) ∧ Stored s w y z) := by
  refine registered ch env c l hl hu s own huse [⟨"max_iter".toList, false, some (.num 10)⟩, ⟨"tol".toList, false, some (.num (1 / 100000))⟩] []
    karcherMethod (mem_static ch _ (List.mem_append_left _ (List.mem_cons_of_mem _ (List.mem_cons_of_mem _ (List.mem_cons_of_mem _
      (List.mem_cons_of_mem _ (List.mem_cons_of_mem _ (List.mem_cons_of_mem _ (List.mem_cons_self ..)))))))))
    (by simp only [List.map_cons, List.map_nil]; decide +kernel) (by simp) _ ?_
  intro hp htp e he w sl t ins hpl hno hnd hsrc
  obtain ⟨hfed, n, tol, shape, hn, htol, h0, h1, hlen, hshape, ⟨i, hi, hpos⟩, r, hr⟩ := h e he w sl t ins hpl hno
  refine ⟨hfed, ?_, by simp, ?_⟩
  · obtain ⟨x1, h1, _⟩ := hn
    obtain ⟨x2, h2, _⟩ := htol
    intro q hq
    simp only [List.mem_cons, List.not_mem_nil, or_false] at hq
    rcases hq with rfl | rfl
    · exact ⟨x1, h1, by simp⟩
    · exact ⟨x2, h2, by simp⟩
  · intro v hv
    have hv1 := seen_told hv (by rw [hp]; simp) hn
    have hv2 := seen_told hv (by rw [hp]; simp) htol
    obtain ⟨h2, h3⟩ := Sphere.C71_merge w.isEmbed n tol h0 h1 (ins.map (fun i => (i.1, own i.1 i.2))) (by simpa using hlen) shape
      (by intro x hx; obtain ⟨k, hk, rfl⟩ := List.mem_map.1 hx; exact hshape k hk) ⟨_, List.mem_map.2 ⟨i, hi, rfl⟩, hpos⟩ r hr
    refine ⟨r, ?_, shape, hshape, h2, ?_⟩
    · unfold karcherMethod
      rw [hv1, hv2, hv.weight]
      simp only [asCount, asNumber, Int.floor_natCast, Int.cast_natCast, if_true, Int.toNat_natCast, hr, given]
    · rw [h3, List.map_map, List.length_map]
      rfl

/-- The weights and the tensors of inputs, relative to a base. -/
def PartsAre (c : MergeConfig ℝ) (d : OutModule ℝ) (sl : OutSlice ℝ) (t : ℝ) (own : Ref → WeightInfo → Tensor ℝ) (base : Nat → ℝ)
    (ins : List (Ref × WeightInfo)) (parts : List (ℝ × (Nat → ℝ))) : Prop :=
  List.Forall₂ (fun i x => WeightIs c d sl t i x.1 ∧ x.2 = fun k => (own i.1 i.2).get k - base k) ins parts

/-- The settings of Multi-SLERP at a place, which allow it: the weights can be normalised, the mean direction is not negligible. -/
structure MultislerpAt (c : MergeConfig ℝ) (d : OutModule ℝ) (w : WeightInfo) (sl : OutSlice ℝ) (t : ℝ) (n : Nat) (parts : List (ℝ × (Nat → ℝ)))
    (normalize : Bool) (eps : ℝ) : Prop where
  scaled : Counts c d sl w.name t "normalize_weights" (yes true) (yes normalize)
  small : Counts c d sl w.name t "eps" (.num (1 / 100000000)) (.num eps)
  positive : 0 < eps
  two : 2 ≤ parts.length
  weights : normalize = true → (parts.map Prod.fst).sum ≠ 0
  clear : eps ≤ Sphere.normOn (List.range n) (Sphere.direction n eps normalize parts)

theorem multislerp_tensors (normalize : Bool) (eps : ℝ) (base : Option (Tensor ℝ)) (xs : List (Tensor ℝ)) (ws : List ℝ) (h2 : 2 ≤ xs.length)
    (shape : List Nat) (hs : ∀ x ∈ xs, x.shape = shape) (hb : ∀ b, base = some b → b.shape = shape) (r : Nat → ℝ)
    (h : Sphere.multislerp shape.prod (base.map (·.get)) normalize eps (ws.zip (xs.map (·.get))) = .ok r) :
    multislerpTensors normalize eps base xs ws = .ok ⟨shape, r⟩ := by
  match xs, h2 with
  | x :: y :: rest, _ =>
    have hx : x.shape = shape := hs x (by simp)
    have hn : x.numel = shape.prod := by rw [← hx]; rfl
    unfold multislerpTensors
    simp only
    rw [if_pos, hn, h, hx]
    · refine ⟨?_, ?_⟩
      · rw [List.all_eq_true]
        intro z hz
        rw [hx]
        simpa using hs z (List.mem_cons_of_mem _ hz)
      · cases base with
        | none => rfl
        | some b => simpa [hx] using hb b rfl

theorem parts_eq {c : MergeConfig ℝ} {d : OutModule ℝ} {sl : OutSlice ℝ} {t : ℝ} {own : Ref → WeightInfo → Tensor ℝ} {base : Nat → ℝ}
    {ins : List (Ref × WeightInfo)} {parts : List (ℝ × (Nat → ℝ))} (h : PartsAre c d sl t own base ins parts) (pv : Ref → ℝ)
    (hpv : ∀ i ∈ ins, ∀ x, WeightIs c d sl t i x → pv i.1 = x) : parts = ins.map (fun i => (pv i.1, fun k => (own i.1 i.2).get k - base k)) := by
  unfold PartsAre at h
  induction h with
  | nil => rfl
  | cons h1 h2 ih =>
    rw [List.map_cons, ← ih (fun i hi => hpv i (List.mem_cons_of_mem _ hi)), hpv _ (by simp) _ h1.1, ← h1.2]

/-- Multi-SLERP on what it is handed. -/
theorem multislerp_run (v : View ℝ) (ins : List (Ref × WeightInfo)) (hn : (ins.map Prod.fst).Nodup)
    (horder : ∀ name l, (ch.order name l).Perm l)
    (hw : ∀ i ∈ ins, some i.1 ≠ v.base → ∃ x, asNumber (v.valueOf i.1 "weight".toList) = some x) :
    ∃ es : List (Ref × Tensor ℝ), es.Perm ((ins.filter (fun i => decide (some i.1 ≠ v.base))).map (fun i => (i.1, own i.1 i.2))) ∧
      multislerpMethod ch v (ins.map (fun i => (i.1, own i.1 i.2))) = multislerpFunc v (es.map Prod.snd)
        (v.base.bind (Merge.lookup (ins.map (fun i => (i.1, own i.1 i.2)))))
        (es.map (fun e => (asNumber (v.valueOf e.1 "weight".toList)).getD 0)) := by
  have hn' : ((ins.map (fun i => (i.1, own i.1 i.2))).map Prod.fst).Nodup := by
    rw [List.map_map]; exact hn
  obtain ⟨es, hes, hrun⟩ := easy_run ⟨true, false, false⟩ rfl (ch.order v.weight.name ((ins.map (fun i => (i.1, own i.1 i.2))).map Prod.fst)) v.base
    (ins.map (fun i => (i.1, own i.1 i.2))) (fun m => asNumber (v.valueOf m "weight".toList)) (horder _ _) hn'
    (fun m => (asNumber (v.valueOf m "weight".toList)).getD 0) (by
      intro m hm hb
      rw [List.map_map] at hm
      obtain ⟨i, hi, rfl⟩ := List.mem_map.1 hm
      obtain ⟨x, hx⟩ := hw i hi hb
      simp only [Function.comp_apply]
      rw [hx]
      rfl) (by intro h; cases h)
  refine ⟨es, ?_, ?_⟩
  · rw [List.filter_map] at hes
    exact hes
  · unfold multislerpMethod decoratedMethod
    rw [if_neg (by simp)]
    simp only
    rw [hrun]

theorem zip_own (es : List (Ref × Tensor ℝ)) (pv : Ref → ℝ) :
    (es.map (fun e => pv e.1)).zip ((es.map Prod.snd).map (·.get)) = es.map (fun e => (pv e.1, e.2.get)) := by
  rw [List.map_map, List.zip_map']
  rfl

theorem parts_given {env : Env ℝ} {c : MergeConfig ℝ} {d : OutModule ℝ} {w : WeightInfo} {sl : OutSlice ℝ} {t : ℝ} {ins sub : List (Ref × WeightInfo)}
    {v : View ℝ} (hv : SeenAt env c d w sl t ins v) (htp : env.tensorParams = [⟨"weight".toList, true, none⟩])
    (hsub : ∀ i ∈ sub, i ∈ ins) {base : Nat → ℝ} {parts : List (ℝ × (Nat → ℝ))} (hparts : PartsAre c d sl t own base sub parts) :
    (∀ i ∈ sub, ∃ x, WeightIs c d sl t i x ∧ asNumber (v.valueOf i.1 "weight".toList) = some x) ∧
      parts = sub.map (fun i => ((asNumber (v.valueOf i.1 "weight".toList)).getD 0, fun k => (own i.1 i.2).get k - base k)) := by
  have h1 : ∀ i ∈ sub, ∀ x, WeightIs c d sl t i x → asNumber (v.valueOf i.1 "weight".toList) = some x :=
    fun i hi x hx => seen_weight hv (by rw [htp]; simp) (hsub i hi) hx
  refine ⟨fun i hi => ?_, parts_eq hparts (fun m => (asNumber (v.valueOf m "weight".toList)).getD 0) (fun i hi x hx => by rw [h1 i hi x hx]; rfl)⟩
  obtain ⟨p, _, hp, _⟩ := forall₂_mem_left hparts i hi
  exact ⟨_, hp, h1 i hi _ hp⟩

include horder hl hu in
/-- **C113** Multi-SLERP, no base model given: the weighted mean of the directions with the weighted mean of the lengths (times the cosine of `eps`). -/
theorem C113_multislerp (huse : Uses ch "multislerp" env s)
    (h : ∀ e ∈ l, ∀ w sl t ins, Place env e.1 (e.2.slices.getD []) w sl t ins → ¬ LeftOut env w ins → Fed s own w ins ∧ (∀ b, ¬ BaseIs c sl b) ∧
      ∃ shape parts normalize eps, PartsAre c e.2 sl t own (fun _ => 0) ins parts ∧ MultislerpAt c e.2 w sl t shape.prod parts normalize eps ∧
        ∀ i ∈ ins, (own i.1 i.2).shape = shape) :
    Delivers env c l s (fun e w sl t ins z => ∃ y, (∃ parts normalize eps, PartsAre c e.2 sl t own (fun _ => 0) ins parts ∧
      MultislerpAt c e.2 w sl t y.numel parts normalize eps ∧ (∀ i ∈ ins, (own i.1 i.2).shape = y.shape) ∧
      ∀ k, y.get k = Real.cos eps * Sphere.meanLength y.numel normalize parts * (Sphere.direction y.numel eps normalize parts k /
        Sphere.normOn (List.range y.numel) (Sphere.direction y.numel eps normalize parts))) ∧ Stored s w y z) := by
  refine registered ch env c l hl hu s own huse _ _ (multislerpMethod ch) (mem_decorated ch _ (List.mem_cons_self ..))
    (by simp only [List.map_cons, List.map_nil]; decide +kernel) (by simp) _ ?_
  intro hp htp e he w sl t ins hpl hno hnd hsrc
  have hsn : (sl.sources.map (·.model)).Nodup := hu.once e he sl hpl.models.1
  obtain ⟨hfed, hnb, shape, parts, normalize, eps, hparts, hset, hshape⟩ := h e he w sl t ins hpl hno
  refine ⟨hfed, ?_, ?_, ?_⟩
  · obtain ⟨⟨x1, h1, _⟩, ⟨x2, h2, _⟩, _⟩ := hset
    intro q hq
    simp only [List.mem_cons, List.not_mem_nil, or_false] at hq
    rcases hq with rfl | rfl
    · exact ⟨x1, h1, by simp⟩
    · exact ⟨x2, h2, by simp⟩
  · intro i hi src hs hm q hq
    rw [List.mem_singleton] at hq
    subst hq
    obtain ⟨p, _, hpw, _⟩ := forall₂_mem_left hparts i hi
    exact ⟨_, weightIs_reads hpw hsn src hs hm, by simp⟩
  · intro v hv
    have hb := seen_noBase hv hnb
    obtain ⟨hwt, hpe⟩ := parts_given own hv htp (fun i hi => hi) hparts
    have hv1 := seen_told hv (default := yes true) (by rw [hp]; simp [yes]) hset.scaled
    have hv2 := seen_told hv (by rw [hp]; simp) hset.small
    obtain ⟨es, hes, hrun⟩ := multislerp_run ch own v ins hnd horder (fun i hi _ => (hwt i hi).imp (fun x hx => hx.2))
    have hall : ins.filter (fun i => decide (some i.1 ≠ v.base)) = ins := by
      rw [List.filter_eq_self]
      intro i _
      rw [hb]
      simp
    rw [hall] at hes
    obtain ⟨r, hr, hrv⟩ := Sphere.C70_result shape.prod eps normalize hset.positive parts hset.two hset.weights hset.clear
    have hperm : (es.map (fun e => ((asNumber (v.valueOf e.1 "weight".toList)).getD 0, e.2.get))).Perm parts := by
      rw [hpe]
      refine (hes.map _).trans ?_
      rw [List.map_map]
      refine List.Perm.of_eq (List.map_congr_left (fun i _ => ?_))
      simp only [Function.comp_apply, sub_zero]
    have hmt := multislerp_tensors normalize eps none (es.map Prod.snd) (es.map (fun e => (asNumber (v.valueOf e.1 "weight".toList)).getD 0))
      (by rw [List.length_map, ← List.length_map (f := fun e : Ref × Tensor ℝ => ((asNumber (v.valueOf e.1 "weight".toList)).getD 0, e.2.get)),
        hperm.length_eq]; exact hset.two) shape (by
        intro x hx
        obtain ⟨e', he', rfl⟩ := List.mem_map.1 hx
        obtain ⟨i, hi, rfl⟩ := List.mem_map.1 (hes.mem_iff.1 he')
        exact hshape i hi) (by simp) r (by
        rw [zip_own es (fun m => (asNumber (v.valueOf m "weight".toList)).getD 0), Option.map_none, Sphere.C105_multislerp _ _ _ _ _ _ hperm, hr])
    refine ⟨⟨shape, r⟩, ?_, parts, normalize, eps, hparts, hset, hshape, hrv⟩
    rw [hrun, hb, Option.bind_none]
    have hve : asNumber (v.value "eps".toList) = some eps := by rw [hv2]; rfl
    unfold multislerpFunc
    rw [hve]
    simp only
    rw [hv1, asTruth_yes, hmt]
    rfl

include horder hl hu in
/-- **C113** Multi-SLERP of the changes to a base model. -/
theorem C113_multislerp_base (huse : Uses ch "multislerp" env s)
    (h : ∀ e ∈ l, ∀ w sl t ins, Place env e.1 (e.2.slices.getD []) w sl t ins → ¬ LeftOut env w ins → Fed s own w ins ∧
      ∃ b wb parts normalize eps, BaseIs c sl b ∧ (b, wb) ∈ ins ∧
        PartsAre c e.2 sl t own (own b wb).get (ins.filter (fun i => decide (i.1 ≠ b))) parts ∧
        MultislerpAt c e.2 w sl t (own b wb).numel parts normalize eps ∧
        (∀ src ∈ sl.sources, src.model = b → ∃ x, SaysOf c e.2 sl src wb.name t "weight" x) ∧
        ∀ i ∈ ins, (own i.1 i.2).shape = (own b wb).shape) :
    Delivers env c l s (fun e w sl t ins z => ∃ y, (∃ b wb parts normalize eps, BaseIs c sl b ∧ (b, wb) ∈ ins ∧
      PartsAre c e.2 sl t own (own b wb).get (ins.filter (fun i => decide (i.1 ≠ b))) parts ∧
      MultislerpAt c e.2 w sl t (own b wb).numel parts normalize eps ∧ y.shape = (own b wb).shape ∧
      ∀ k, y.get k = Real.cos eps * Sphere.meanLength y.numel normalize parts * (Sphere.direction y.numel eps normalize parts k /
        Sphere.normOn (List.range y.numel) (Sphere.direction y.numel eps normalize parts)) + (own b wb).get k) ∧ Stored s w y z) := by
  refine registered ch env c l hl hu s own huse _ _ (multislerpMethod ch) (mem_decorated ch _ (List.mem_cons_self ..))
    (by simp only [List.map_cons, List.map_nil]; decide +kernel) (by simp) _ ?_
  intro hp htp e he w sl t ins hpl hno hnd hsrc
  have hsn : (sl.sources.map (·.model)).Nodup := hu.once e he sl hpl.models.1
  obtain ⟨hfed, b, wb, parts, normalize, eps, hb, hbi, hparts, hset, hbw, hshape⟩ := h e he w sl t ins hpl hno
  refine ⟨hfed, ?_, ?_, ?_⟩
  · obtain ⟨⟨x1, h1, _⟩, ⟨x2, h2, _⟩, _⟩ := hset
    intro q hq
    simp only [List.mem_cons, List.not_mem_nil, or_false] at hq
    rcases hq with rfl | rfl
    · exact ⟨x1, h1, by simp⟩
    · exact ⟨x2, h2, by simp⟩
  · intro i hi src hs hm q hq
    rw [List.mem_singleton] at hq
    subst hq
    by_cases hib : i.1 = b
    · have hi2 : i = (b, wb) := List.inj_on_of_nodup_map hnd hi hbi hib
      subst hi2
      obtain ⟨x, hx⟩ := hbw src hs hm
      exact ⟨x, hx, fun _ => Or.inr hb⟩
    · obtain ⟨p, _, hpw, _⟩ := forall₂_mem_left hparts i (List.mem_filter.2 ⟨hi, by simpa using hib⟩)
      exact ⟨_, weightIs_reads hpw hsn src hs hm, by simp⟩
  · intro v hv
    have hvb := (hv.base b).2 hb
    obtain ⟨hwt, hpe⟩ := parts_given own hv htp (fun i hi => (List.mem_filter.1 hi).1) hparts
    have hv1 := seen_told hv (default := yes true) (by rw [hp]; simp [yes]) hset.scaled
    have hv2 := seen_told hv (by rw [hp]; simp) hset.small
    obtain ⟨es, hes, hrun⟩ := multislerp_run ch own v ins hnd horder (fun i hi hne => (hwt i (List.mem_filter.2 ⟨hi, by
      rw [hvb] at hne
      simpa using hne⟩)).imp (fun x hx => hx.2))
    have hall : ins.filter (fun i => decide (some i.1 ≠ v.base)) = ins.filter (fun i => decide (i.1 ≠ b)) := by
      refine List.filter_congr (fun i _ => ?_)
      rw [hvb]
      simp
    rw [hall] at hes
    have hlk : Merge.lookup (ins.map (fun i => (i.1, own i.1 i.2))) b = some (own b wb) :=
      lookup_own _ (by rw [List.map_map]; exact hnd) (b, own b wb) (List.mem_map.2 ⟨(b, wb), hbi, rfl⟩)
    obtain ⟨r, hr, hrv⟩ := Sphere.C70_result (own b wb).numel eps normalize hset.positive parts hset.two hset.weights hset.clear
    have hperm : ((es.map (fun e => ((asNumber (v.valueOf e.1 "weight".toList)).getD 0, e.2.get))).map
        (fun e => (e.1, fun i => e.2 i - (own b wb).get i))).Perm parts := by
      rw [hpe, List.map_map]
      refine (hes.map _).trans ?_
      rw [List.map_map]
      exact List.Perm.of_eq (List.map_congr_left (fun i _ => rfl))
    have hlen : 2 ≤ (es.map (fun e => ((asNumber (v.valueOf e.1 "weight".toList)).getD 0, e.2.get))).length := by
      have := hperm.length_eq
      rw [List.length_map] at this
      rw [this]
      exact hset.two
    have hmt := multislerp_tensors normalize eps (some (own b wb)) (es.map Prod.snd)
      (es.map (fun e => (asNumber (v.valueOf e.1 "weight".toList)).getD 0)) (by simpa using hlen) (own b wb).shape (by
        intro x hx
        obtain ⟨e', he', rfl⟩ := List.mem_map.1 hx
        obtain ⟨i, hi, rfl⟩ := List.mem_map.1 (hes.mem_iff.1 he')
        exact hshape i (List.mem_filter.1 hi).1) (by intro b' hb'; cases hb'; rfl) (fun i => r i + (own b wb).get i) (by
        rw [zip_own es (fun m => (asNumber (v.valueOf m "weight".toList)).getD 0), Option.map_some, Sphere.C70_base _ _ _ _ _ hlen,
          Sphere.C105_multislerp _ _ _ _ _ _ hperm]
        have : (own b wb).shape.prod = (own b wb).numel := rfl
        rw [this, hr]
        rfl)
    refine ⟨⟨(own b wb).shape, fun i => r i + (own b wb).get i⟩, ?_, b, wb, parts, normalize, eps, hb, hbi, hparts, hset, rfl, fun k => ?_⟩
    · rw [hrun, hvb, Option.bind_some, hlk]
      have hve : asNumber (v.value "eps".toList) = some eps := by rw [hv2]; rfl
      unfold multislerpFunc
      rw [hve]
      simp only
      rw [hv1, asTruth_yes, hmt]
      rfl
    · have : (⟨(own b wb).shape, fun i => r i + (own b wb).get i⟩ : Tensor ℝ).numel = (own b wb).numel := rfl
      rw [this]
      simp only
      rw [hrv]

end

/-! ## The guide -/

/-- The methods of docs/merge_methods.md. -/
def guideNames : List String :=
  ["linear", "slerp", "nuslerp", "multislerp", "karcher", "task_arithmetic", "ties", "dare_linear", "dare_ties", "della", "della_linear", "breadcrumbs",
   "breadcrumbs_ties", "sce", "ram", "ramplus_tl", "model_stock", "nearswap", "arcee_fusion", "passthrough"]

/-- A parameter in the guide: of which method, under which name, whether for each model or for all together, and the default, if it gives one. -/
structure GuideEntry where
  method : String
  key : String
  perModel : Bool
  default : Option (Scalar ℝ)

/-- All parameters that docs/merge_methods.md lists. -/
noncomputable def guide : List GuideEntry :=
  [⟨"linear", "weight", true, none⟩, ⟨"linear", "normalize", false, some (yes true)⟩, ⟨"slerp", "t", false, none⟩,
   ⟨"nuslerp", "weight", true, none⟩, ⟨"nuslerp", "nuslerp_flatten", false, some (yes true)⟩,
   ⟨"nuslerp", "nuslerp_row_wise", false, some (yes false)⟩, ⟨"multislerp", "weight", true, none⟩,
   ⟨"multislerp", "normalize_weights", false, some (yes true)⟩, ⟨"multislerp", "eps", false, some (.num (1 / 100000000))⟩,
   ⟨"karcher", "max_iter", false, some (.num 10)⟩, ⟨"karcher", "tol", false, some (.num (1 / 100000))⟩,
   ⟨"task_arithmetic", "weight", true, none⟩, ⟨"task_arithmetic", "lambda", false, some (.num 1)⟩] ++
  (["ties", "dare_linear", "dare_ties", "della", "della_linear", "breadcrumbs", "breadcrumbs_ties"].flatMap (fun n =>
    [⟨n, "weight", true, none⟩, ⟨n, "density", true, none⟩, ⟨n, "lambda", false, some (.num 1)⟩])) ++
  [⟨"dare_linear", "rescale", false, some (yes true)⟩, ⟨"della", "epsilon", true, none⟩, ⟨"della_linear", "epsilon", true, none⟩,
   ⟨"breadcrumbs", "gamma", true, none⟩, ⟨"breadcrumbs_ties", "gamma", true, none⟩, ⟨"sce", "select_topk", false, some (.num 1)⟩,
   ⟨"ram", "epsilon", false, some (.num (1 / 100000))⟩, ⟨"ramplus_tl", "epsilon", false, some (.num (1 / 100000))⟩,
   ⟨"ramplus_tl", "r", false, some (.num (1 / 10))⟩, ⟨"ramplus_tl", "alpha", false, some (.num (2 / 10))⟩,
   ⟨"model_stock", "filter_wise", false, some (yes false)⟩, ⟨"nearswap", "t", false, none⟩, ⟨"passthrough", "scale", true, none⟩]

theorem registry_names (ch : Chance) : (registry ch).map (·.name) =
    ["linear".toList, "slerp".toList, "nuslerp".toList, "passthrough".toList, "model_stock".toList, "arcee_fusion".toList, "karcher".toList] ++
    (gtaVariants.map (·.name)) ++ ["multislerp".toList, "nearswap".toList, "ram".toList, "ramplus_tl".toList, "sce".toList] := by
  rw [registry_eq]
  simp only [staticMethods, decoratedMethods, List.map_append, List.map_map, List.map_cons, List.map_nil]
  rfl

theorem getMethod_name (ch : Chance) (name : Str) (m : Method) (h : getMethod ch name = some m) : m ∈ registry ch ∧ m.name = name := by
  unfold getMethod at h
  exact ⟨List.mem_of_find?_eq_some h, by simpa using List.find?_some h⟩

/-- **C113** The methods that can be asked for are exactly those of the guide, each under its own name; no two have the same name. -/
theorem C113_names (ch : Chance) (name : Str) :
    ((∃ m, getMethod ch name = some m ∧ m.name = name) ↔ ∃ n ∈ guideNames, name = n.toList) ∧
    ((¬ ∃ n ∈ guideNames, name = n.toList) → getMethod ch name = none) ∧ (guideNames.map String.toList).Nodup := by
  have hperm : ((registry ch).map (·.name)).Perm (guideNames.map String.toList) := by
    rw [registry_names]
    simp only [gtaVariants, guideNames, List.map_cons, List.map_nil, List.cons_append, List.nil_append]
    decide +kernel
  have hsome : (∃ m, getMethod ch name = some m ∧ m.name = name) ↔ ∃ n ∈ guideNames, name = n.toList := by
    constructor
    · rintro ⟨m, h, _⟩
      obtain ⟨h1, rfl⟩ := getMethod_name ch name m h
      have := hperm.mem_iff.1 (List.mem_map.2 ⟨m, h1, rfl⟩)
      obtain ⟨n, hn, h2⟩ := List.mem_map.1 this
      exact ⟨n, hn, h2.symm⟩
    · rintro ⟨n, hn, rfl⟩
      obtain ⟨m, hm, h2⟩ := List.mem_map.1 (hperm.mem_iff.2 (List.mem_map.2 ⟨n, hn, rfl⟩))
      exact ⟨m, by rw [← h2]; exact getMethod_mem ch m hm, h2⟩
  refine ⟨hsome, fun h => ?_, hperm.nodup_iff.1 (registry_distinct ch)⟩
  cases hg : getMethod ch name with
  | none => rfl
  | some m => exact absurd (hsome.1 ⟨m, hg, (getMethod_name ch name m hg).2⟩) h

/-- Whether a method has the parameter of an entry. -/
def HasEntry (m : Method) (g : GuideEntry) : Prop :=
  ∃ q ∈ (if g.perModel then m.tensorParams else m.params), q.name = g.key.toList ∧ ∀ d, g.default = some d → q.default = some d ∧ q.required = false

theorem guide_at (ch : Chance) (g : GuideEntry) (methods : List Method) (hms : ∀ m ∈ methods, m ∈ registry ch) (k j : Nat) (m : Method)
    (hm : methods[k]? = some m) (q : ParamDef ℝ) (hq : (if g.perModel then m.tensorParams else m.params)[j]? = some q)
    (hn : m.name = g.method.toList) (hk : q.name = g.key.toList) (hd : ∀ d, g.default = some d → q.default = some d ∧ q.required = false) :
    ∃ m, getMethod ch g.method.toList = some m ∧ HasEntry m g :=
  ⟨m, by rw [← hn]; exact getMethod_mem ch m (hms m (List.mem_of_getElem? hm)), q, List.mem_of_getElem? hq, hk, hd⟩

/-- **C113** Every parameter that the guide lists is one of the method, for each model or for all as the guide says, with the default that it gives. -/
theorem C113_guide (ch : Chance) (g : GuideEntry) (hg : g ∈ guide) : ∃ m, getMethod ch g.method.toList = some m ∧ HasEntry m g := by
  unfold guide at hg
  simp only [List.flatMap_cons, List.flatMap_nil, List.append_nil, List.mem_append, List.mem_cons, List.not_mem_nil, or_false, or_assoc] at hg
  rcases hg with rfl | rfl | rfl | rfl | rfl | rfl | rfl | rfl | rfl | rfl | rfl | rfl | rfl | rfl | rfl | rfl | rfl | rfl | rfl | rfl | rfl | rfl | rfl | rfl | rfl | rfl | rfl | rfl | rfl | rfl | rfl | rfl | rfl | rfl | rfl | rfl | rfl | rfl | rfl | rfl | rfl | rfl | rfl | rfl | rfl | rfl | rfl
  · exact guide_at ch _ (staticMethods ch) (mem_static ch) 0 0 _ rfl _ rfl rfl rfl (by rintro d ⟨⟩)
  · exact guide_at ch _ (staticMethods ch) (mem_static ch) 0 0 _ rfl _ rfl rfl rfl (by rintro d ⟨⟩; exact ⟨rfl, rfl⟩)
  · exact guide_at ch _ (staticMethods ch) (mem_static ch) 1 0 _ rfl _ rfl rfl rfl (by rintro d ⟨⟩)
  · exact guide_at ch _ (staticMethods ch) (mem_static ch) 2 0 _ rfl _ rfl rfl rfl (by rintro d ⟨⟩)
  · exact guide_at ch _ (staticMethods ch) (mem_static ch) 2 1 _ rfl _ rfl rfl rfl (by rintro d ⟨⟩; exact ⟨rfl, rfl⟩)
  · exact guide_at ch _ (staticMethods ch) (mem_static ch) 2 0 _ rfl _ rfl rfl rfl (by rintro d ⟨⟩; exact ⟨rfl, rfl⟩)
  · exact guide_at ch _ (decoratedMethods ch) (mem_decorated ch) 0 0 _ rfl _ rfl rfl rfl (by rintro d ⟨⟩)
  · exact guide_at ch _ (decoratedMethods ch) (mem_decorated ch) 0 0 _ rfl _ rfl rfl rfl (by rintro d ⟨⟩; exact ⟨rfl, rfl⟩)
  · exact guide_at ch _ (decoratedMethods ch) (mem_decorated ch) 0 1 _ rfl _ rfl rfl rfl (by rintro d ⟨⟩; exact ⟨rfl, rfl⟩)
  · exact guide_at ch _ (staticMethods ch) (mem_static ch) 6 0 _ rfl _ rfl rfl rfl (by rintro d ⟨⟩; exact ⟨rfl, rfl⟩)
  · exact guide_at ch _ (staticMethods ch) (mem_static ch) 6 1 _ rfl _ rfl rfl rfl (by rintro d ⟨⟩; exact ⟨rfl, rfl⟩)
  · exact guide_at ch _ (staticMethods ch) (mem_static ch) 7 0 _ rfl _ rfl rfl rfl (by rintro d ⟨⟩)
  · exact guide_at ch _ (staticMethods ch) (mem_static ch) 7 3 _ rfl _ rfl rfl rfl (by rintro d ⟨⟩; exact ⟨rfl, rfl⟩)
  · exact guide_at ch _ (staticMethods ch) (mem_static ch) 8 0 _ rfl _ rfl rfl rfl (by rintro d ⟨⟩)
  · exact guide_at ch _ (staticMethods ch) (mem_static ch) 8 1 _ rfl _ rfl rfl rfl (by rintro d ⟨⟩)
  · exact guide_at ch _ (staticMethods ch) (mem_static ch) 8 3 _ rfl _ rfl rfl rfl (by rintro d ⟨⟩; exact ⟨rfl, rfl⟩)
  · exact guide_at ch _ (staticMethods ch) (mem_static ch) 10 0 _ rfl _ rfl rfl rfl (by rintro d ⟨⟩)
  · exact guide_at ch _ (staticMethods ch) (mem_static ch) 10 1 _ rfl _ rfl rfl rfl (by rintro d ⟨⟩)
  · exact guide_at ch _ (staticMethods ch) (mem_static ch) 10 3 _ rfl _ rfl rfl rfl (by rintro d ⟨⟩; exact ⟨rfl, rfl⟩)
  · exact guide_at ch _ (staticMethods ch) (mem_static ch) 9 0 _ rfl _ rfl rfl rfl (by rintro d ⟨⟩)
  · exact guide_at ch _ (staticMethods ch) (mem_static ch) 9 1 _ rfl _ rfl rfl rfl (by rintro d ⟨⟩)
  · exact guide_at ch _ (staticMethods ch) (mem_static ch) 9 3 _ rfl _ rfl rfl rfl (by rintro d ⟨⟩; exact ⟨rfl, rfl⟩)
  · exact guide_at ch _ (staticMethods ch) (mem_static ch) 13 0 _ rfl _ rfl rfl rfl (by rintro d ⟨⟩)
  · exact guide_at ch _ (staticMethods ch) (mem_static ch) 13 1 _ rfl _ rfl rfl rfl (by rintro d ⟨⟩)
  · exact guide_at ch _ (staticMethods ch) (mem_static ch) 13 3 _ rfl _ rfl rfl rfl (by rintro d ⟨⟩; exact ⟨rfl, rfl⟩)
  · exact guide_at ch _ (staticMethods ch) (mem_static ch) 14 0 _ rfl _ rfl rfl rfl (by rintro d ⟨⟩)
  · exact guide_at ch _ (staticMethods ch) (mem_static ch) 14 1 _ rfl _ rfl rfl rfl (by rintro d ⟨⟩)
  · exact guide_at ch _ (staticMethods ch) (mem_static ch) 14 3 _ rfl _ rfl rfl rfl (by rintro d ⟨⟩; exact ⟨rfl, rfl⟩)
  · exact guide_at ch _ (staticMethods ch) (mem_static ch) 11 0 _ rfl _ rfl rfl rfl (by rintro d ⟨⟩)
  · exact guide_at ch _ (staticMethods ch) (mem_static ch) 11 1 _ rfl _ rfl rfl rfl (by rintro d ⟨⟩)
  · exact guide_at ch _ (staticMethods ch) (mem_static ch) 11 3 _ rfl _ rfl rfl rfl (by rintro d ⟨⟩; exact ⟨rfl, rfl⟩)
  · exact guide_at ch _ (staticMethods ch) (mem_static ch) 12 0 _ rfl _ rfl rfl rfl (by rintro d ⟨⟩)
  · exact guide_at ch _ (staticMethods ch) (mem_static ch) 12 1 _ rfl _ rfl rfl rfl (by rintro d ⟨⟩)
  · exact guide_at ch _ (staticMethods ch) (mem_static ch) 12 3 _ rfl _ rfl rfl rfl (by rintro d ⟨⟩; exact ⟨rfl, rfl⟩)
  · exact guide_at ch _ (staticMethods ch) (mem_static ch) 10 2 _ rfl _ rfl rfl rfl (by rintro d ⟨⟩; exact ⟨rfl, rfl⟩)
  · exact guide_at ch _ (staticMethods ch) (mem_static ch) 13 2 _ rfl _ rfl rfl rfl (by rintro d ⟨⟩)
  · exact guide_at ch _ (staticMethods ch) (mem_static ch) 14 2 _ rfl _ rfl rfl rfl (by rintro d ⟨⟩)
  · exact guide_at ch _ (staticMethods ch) (mem_static ch) 11 2 _ rfl _ rfl rfl rfl (by rintro d ⟨⟩)
  · exact guide_at ch _ (staticMethods ch) (mem_static ch) 12 2 _ rfl _ rfl rfl rfl (by rintro d ⟨⟩)
  · exact guide_at ch _ (decoratedMethods ch) (mem_decorated ch) 4 1 _ rfl _ rfl rfl rfl (by rintro d ⟨⟩; exact ⟨rfl, rfl⟩)
  · exact guide_at ch _ (decoratedMethods ch) (mem_decorated ch) 2 0 _ rfl _ rfl rfl rfl (by rintro d ⟨⟩; exact ⟨rfl, rfl⟩)
  · exact guide_at ch _ (decoratedMethods ch) (mem_decorated ch) 3 2 _ rfl _ rfl rfl rfl (by rintro d ⟨⟩; exact ⟨rfl, rfl⟩)
  · exact guide_at ch _ (decoratedMethods ch) (mem_decorated ch) 3 0 _ rfl _ rfl rfl rfl (by rintro d ⟨⟩; exact ⟨rfl, rfl⟩)
  · exact guide_at ch _ (decoratedMethods ch) (mem_decorated ch) 3 1 _ rfl _ rfl rfl rfl (by rintro d ⟨⟩; exact ⟨rfl, rfl⟩)
  · exact guide_at ch _ (staticMethods ch) (mem_static ch) 4 0 _ rfl _ rfl rfl rfl (by rintro d ⟨⟩; exact ⟨rfl, rfl⟩)
  · exact guide_at ch _ (decoratedMethods ch) (mem_decorated ch) 1 0 _ rfl _ rfl rfl rfl (by rintro d ⟨⟩)
  · exact guide_at ch _ (staticMethods ch) (mem_static ch) 3 0 _ rfl _ rfl rfl rfl (by rintro d ⟨⟩)

/-- What depends only on the view is a function of it. -/
theorem of_view {A B : Type} (default : B) (task : Planned ℝ → A → B) (h : ∀ p p', viewOf p = viewOf p' → ∀ a, task p a = task p' a) :
    ∃ f : View ℝ → A → B, ∀ p a, task p a = f (viewOf p) a := by
  classical
  refine ⟨fun v a => if hv : ∃ p, viewOf p = v then task hv.choose a else default, fun p a => ?_⟩
  have hv : ∃ p', viewOf p' = viewOf p := ⟨p, rfl⟩
  simp only [dif_pos hv]
  exact h p _ hv.choose_spec.symm a

/-- **C113** C112 applies to every registered method: what it gives depends only on the tensors and on what it looks up by name, and the names of its
parameters differ. -/
theorem C113_registered (ch : Chance) (m : Method) (hm : m ∈ registry ch) :
    (m.params.map (·.name)).Nodup ∧ (m.tensorParams.map (·.name)).Nodup ∧
    ∃ f : View ℝ → List (Ref × Tensor ℝ) → Except MethodErr (Option (Tensor ℝ)), ∀ p ts, m.task p ts = f (viewOf p) ts := by
  rw [registry_eq, List.mem_append] at hm
  rcases hm with hm | hm
  · rw [staticMethods, List.mem_append] at hm
    rcases hm with hm | hm
    · simp only [List.mem_cons, List.not_mem_nil, or_false] at hm
      rcases hm with rfl | rfl | rfl | rfl | rfl | rfl | rfl
      · exact ⟨by simp, by simp, of_view (.error .badParameter) _ viewOf_linear⟩
      · exact ⟨by simp, by simp, of_view (.error .badParameter) _ viewOf_slerp⟩
      · exact ⟨by simp only [List.map_cons, List.map_nil]; decide +kernel, by simp, nuslerpMethod, fun _ _ => rfl⟩
      · exact ⟨by simp, by simp, of_view (.error .badParameter) _ viewOf_passthrough⟩
      · exact ⟨by simp, by simp, modelStockMethod, fun _ _ => rfl⟩
      · exact ⟨by simp, by simp, arceeMethod ch, fun _ _ => rfl⟩
      · exact ⟨by simp only [List.map_cons, List.map_nil]; decide +kernel, by simp, karcherMethod, fun _ _ => rfl⟩
    · obtain ⟨g, _, rfl⟩ := List.mem_map.1 hm
      refine ⟨?_, ?_, of_view (.error .badParameter) _ (viewOf_gta g ch.tools)⟩
      · simp only [GtaVariant.params, List.map_cons, List.map_nil]
        decide +kernel
      · simp only [GtaVariant.tensorParams, List.map_append, List.map_cons, List.map_nil]
        split <;> split <;> simp only [List.map_cons, List.map_nil, List.append_nil, List.cons_append, List.nil_append] <;> decide +kernel
  · simp only [decoratedMethods, List.mem_cons, List.not_mem_nil, or_false] at hm
    rcases hm with rfl | rfl | rfl | rfl | rfl
    · exact ⟨by simp only [List.map_cons, List.map_nil]; decide +kernel, by simp, multislerpMethod ch, fun _ _ => rfl⟩
    · exact ⟨by simp, by simp, nearswapMethod ch, fun _ _ => rfl⟩
    · exact ⟨by simp, by simp, ramMethod ch, fun _ _ => rfl⟩
    · exact ⟨by simp only [List.map_cons, List.map_nil]; decide +kernel, by simp, ramplusMethod ch, fun _ _ => rfl⟩
    · exact ⟨by simp only [List.map_cons, List.map_nil]; decide +kernel, by simp, sceMethod ch, fun _ _ => rfl⟩

end Verif.WholeMerge
