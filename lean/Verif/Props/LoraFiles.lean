import Verif.Props.LoraPlan
import Verif.Model.ArchData
import Mathlib.Data.List.Nodup
import Mathlib.Data.List.Perm.Basic

/-! # The tensors of an adapter (C80) -/

namespace Verif.Lora

open Verif.ModelRef (Str)

variable {T : Type} [Sub T]

theorem difference_ok {opt : Bool} {b f : Option T} {d : T} : difference opt b f = .ok d ↔ ∃ x y, b = some x ∧ f = some y ∧ d = y - x := by
  cases b <;> cases f <;> cases opt <;> simp [difference, loadTensor, taskVector, Except.bind, eq_comm]

omit [Sub T] in
theorem saveLoaded_ok {n : Str} {opt : Bool} {s : Option T} {out : List (Str × T)} :
    saveLoaded n opt s = .ok out ↔ (s = none → opt = true) ∧ out = s.toList.map (fun t => (n, t)) := by
  cases s <;> cases opt <;> simp [saveLoaded, loadTensor, Except.map, eq_comm]

/-- The name of a tensor in the adapter. -/
def inAdapter (module kind : Str) : Str := cs!"base_model.model." ++ module ++ kind

/-- The entry for a stored tensor. -/
def entry (name : Str) (stored : Option T) : List (Str × T) := stored.toList.map (fun t => (name, t))

omit [Sub T] in
/-- C80: of a module saved at full rank, weight and bias are written if the fine-tuned model has them (the bias, if the architecture lists it); a
required one that is missing is an error. -/
theorem C80_full {arch : Str → Option Bool} {model : Str → Option T} {name : Str} {out : List (Str × T)} :
    saveFull arch model name = .ok out ↔
      (model (name ++ cs!".weight") = none → arch (name ++ cs!".weight") ≠ some false) ∧
        (model (name ++ cs!".bias") = none → arch (name ++ cs!".bias") ≠ some false) ∧
        out = entry (inAdapter name cs!".weight") (model (name ++ cs!".weight")) ++
          if arch (name ++ cs!".bias") = none then [] else entry (inAdapter name cs!".bias") (model (name ++ cs!".bias")) := by
  unfold saveFull entry inAdapter
  have hw : ∀ o : Option Bool, (o.getD true = true) ↔ o ≠ some false := by
    intro o; cases o with
    | none => simp
    | some b => cases b <;> simp
  cases h1 : saveLoaded (cs!"base_model.model." ++ name ++ cs!".weight") ((arch (name ++ cs!".weight")).getD true) (model (name ++ cs!".weight")) with
  | error e =>
    simp only [Except.bind]
    constructor
    · intro h; cases h
    · rintro ⟨h, _, _⟩
      exfalso
      have := (saveLoaded_ok (n := cs!"base_model.model." ++ name ++ cs!".weight") (opt := (arch (name ++ cs!".weight")).getD true)
        (s := model (name ++ cs!".weight"))).mpr ⟨fun hn => (hw _).mpr (h hn), rfl⟩
      rw [h1] at this; cases this
  | ok w =>
    obtain ⟨h2, rfl⟩ := saveLoaded_ok.mp h1
    simp only [Except.bind]
    cases ha : arch (name ++ cs!".bias") with
    | none =>
      simp only [if_true, List.append_nil, Except.ok.injEq]
      constructor
      · rintro rfl
        exact ⟨fun hn => (hw _).mp (h2 hn), by simp, rfl⟩
      · rintro ⟨_, _, rfl⟩; rfl
    | some opt =>
      simp only [reduceCtorEq, if_false]
      cases h3 : saveLoaded (cs!"base_model.model." ++ name ++ cs!".bias") opt (model (name ++ cs!".bias")) with
      | error e =>
        constructor
        · intro h; cases h
        · rintro ⟨_, h, _⟩
          exfalso
          have := (saveLoaded_ok (n := cs!"base_model.model." ++ name ++ cs!".bias") (opt := opt) (s := model (name ++ cs!".bias"))).mpr
            ⟨fun hn => by have := h hn; cases opt <;> simp_all, rfl⟩
          rw [h3] at this; cases this
      | ok b =>
        obtain ⟨h4, rfl⟩ := saveLoaded_ok.mp h3
        simp only [Except.map, Except.ok.injEq]
        constructor
        · rintro rfl
          exact ⟨fun hn => (hw _).mp (h2 hn), fun hn => by rw [h4 hn]; simp, rfl⟩
        · rintro ⟨_, _, rfl⟩; rfl

/-- The pair of a decomposed module under PEFT's names. -/
def pairEntries (embedding : Bool) (name : Str) (ab : T × T) : List (Str × T) :=
  [(inAdapter name (if embedding then cs!".lora_embedding_A" else cs!".lora_A.weight"), ab.1),
   (inAdapter name (if embedding then cs!".lora_embedding_B" else cs!".lora_B.weight"), ab.2)]

omit [Sub T] in
theorem savePair_eq (embedding : Bool) (name : Str) (ab : T × T) : savePair embedding name ab = pairEntries embedding name ab := by
  cases embedding <;> rfl

/-- C80: of a decomposed module the pair is written, made from the difference of the two models, and the difference of the biases if the architecture
lists one; this works exactly if both models have them. -/
theorem C80_lora_partial {arch : Str → Option Bool} {base model : Str → Option T} {decomp : Bool → T → T × T} {embedding : Bool} {name : Str}
    {out : List (Str × T)} :
    saveLora arch base model decomp embedding name = .ok out ↔
      ∃ x y, base (name ++ cs!".weight") = some x ∧ model (name ++ cs!".weight") = some y ∧
        ((arch (name ++ cs!".bias") = none ∧ out = pairEntries embedding name (decomp embedding (y - x))) ∨
          (arch (name ++ cs!".bias") ≠ none ∧ ∃ xb yb, base (name ++ cs!".bias") = some xb ∧ model (name ++ cs!".bias") = some yb ∧
            out = pairEntries embedding name (decomp embedding (y - x)) ++ [(inAdapter name cs!".lora_B.bias", yb - xb)])) := by
  unfold saveLora
  simp only [savePair_eq]
  cases h1 : difference ((arch (name ++ cs!".weight")).getD true) (base (name ++ cs!".weight")) (model (name ++ cs!".weight")) with
  | error e =>
    constructor
    · intro h; cases h
    · rintro ⟨x, y, hx, hy, _⟩
      exfalso
      have := (difference_ok (opt := (arch (name ++ cs!".weight")).getD true)).mpr ⟨x, y, hx, hy, rfl⟩
      rw [h1] at this; cases this
  | ok tv =>
    obtain ⟨x, y, hx, hy, rfl⟩ := difference_ok.mp h1
    simp only [Except.bind]
    cases ha : arch (name ++ cs!".bias") with
    | none =>
      simp only [Except.ok.injEq]
      constructor
      · rintro rfl
        exact ⟨x, y, hx, hy, Or.inl ⟨trivial, rfl⟩⟩
      · rintro ⟨x', y', hx', hy', h⟩
        rw [hx] at hx'; cases hx'
        rw [hy] at hy'; cases hy'
        rcases h with ⟨_, rfl⟩ | ⟨h, _⟩
        · rfl
        · exact absurd rfl h
    | some opt =>
      simp only
      cases h3 : difference opt (base (name ++ cs!".bias")) (model (name ++ cs!".bias")) with
      | error e =>
        constructor
        · intro h; cases h
        · rintro ⟨x', y', hx', hy', h⟩
          rcases h with ⟨h, _⟩ | ⟨_, xb, yb, hxb, hyb, _⟩
          · cases h
          · exfalso
            have := (difference_ok (opt := opt)).mpr ⟨xb, yb, hxb, hyb, rfl⟩
            rw [h3] at this; cases this
      | ok d =>
        obtain ⟨xb, yb, hxb, hyb, rfl⟩ := difference_ok.mp h3
        simp only [Except.map, Except.ok.injEq]
        constructor
        · rintro rfl
          exact ⟨x, y, hx, hy, Or.inr ⟨by simp, xb, yb, hxb, hyb, rfl⟩⟩
        · rintro ⟨x', y', hx', hy', h⟩
          rw [hx] at hx'; cases hx'
          rw [hy] at hy'; cases hy'
          rcases h with ⟨h, _⟩ | ⟨_, xb', yb', hxb', hyb', rfl⟩
          · cases h
          · rw [hxb] at hxb'; cases hxb'
            rw [hyb] at hyb'; cases hyb'
            rfl

/-- C80, refuted: an optional bias that the fine-tuned model does not have makes the extraction of its module fail. -/
theorem C80_optional_bias_fails {arch : Str → Option Bool} {base model : Str → Option T} {decomp : Bool → T → T × T} {embedding : Bool} {name : Str}
    (ha : arch (name ++ cs!".bias") = some true) (hm : model (name ++ cs!".bias") = none) (out : List (Str × T)) :
    saveLora arch base model decomp embedding name ≠ .ok out := by
  intro h
  obtain ⟨_, _, _, _, h | ⟨_, xb, yb, _, hy, _⟩⟩ := C80_lora_partial.mp h
  · rw [ha] at h; cases h.1
  · rw [hm] at hy; cases hy

/-- The architecture's list as the extraction looks names up in it. -/
def lookupArch (ws : List Arch.WeightInfo) (n : Str) : Option Bool := (ws.find? (fun w => decide (w.name = n))).map (fun w => w.optional)

/-- The shipped definition for Granite lists such biases (they are usually not there). -/
example : ∃ ws, Arch.allWeights (Arch.Data.granite.map (fun m => (m, 2))) = .ok ws ∧
    lookupArch ws (cs!"model.layers.1.self_attn.q_proj" ++ cs!".bias") = some true := by
  refine ⟨_, rfl, ?_⟩
  decide +kernel

/-! ## Names -/

/-- The endings of an adapter's names. -/
def endings : List Str := [cs!".weight", cs!".bias", cs!".lora_A.weight", cs!".lora_B.weight", cs!".lora_B.bias", cs!".lora_embedding_A", cs!".lora_embedding_B"]

/-- A module that is not itself part of an adapter. -/
def Plain (n : Str) : Prop := ¬ cs!".lora_A" <:+ n ∧ ¬ cs!".lora_B" <:+ n

theorem plain_rev {n : Str} (h : Plain n) (x : Str) : n.reverse ≠ 'A' :: '_' :: 'a' :: 'r' :: 'o' :: 'l' :: '.' :: x ∧
    n.reverse ≠ 'B' :: '_' :: 'a' :: 'r' :: 'o' :: 'l' :: '.' :: x := by
  constructor
  · intro he
    exact h.1 ⟨x.reverse, by have := congrArg List.reverse he; rw [List.reverse_reverse] at this; rw [this]; simp⟩
  · intro he
    exact h.2 ⟨x.reverse, by have := congrArg List.reverse he; rw [List.reverse_reverse] at this; rw [this]; simp⟩

theorem ending_inj {n n' e e' : Str} (hn : Plain n) (hn' : Plain n') (he : e ∈ endings) (he' : e' ∈ endings) (h : n ++ e = n' ++ e') : n = n' ∧ e = e' := by
  have hr := congrArg List.reverse h
  rw [List.reverse_append, List.reverse_append] at hr
  have p := plain_rev hn
  have p' := plain_rev hn'
  have fin : n.reverse = n'.reverse → n = n' := fun h => List.reverse_injective h
  simp only [endings, List.mem_cons, List.not_mem_nil, or_false] at he he'
  rcases he with rfl | rfl | rfl | rfl | rfl | rfl | rfl <;> rcases he' with rfl | rfl | rfl | rfl | rfl | rfl | rfl <;>
    simp only [List.reverse_cons, List.reverse_nil, List.nil_append, List.cons_append, List.cons.injEq, true_and, Char.reduceEq,
      false_and, and_false] at hr <;>
    first
      | exact ⟨fin hr, rfl⟩
      | exact absurd hr (p _).1
      | exact absurd hr (p _).2
      | exact absurd hr.symm (p' _).1
      | exact absurd hr.symm (p' _).2

/-- The names written for a module: its name with different endings. -/
theorem saveModule_names {arch : Str → Option Bool} {base model : Str → Option T} {decomp : Bool → T → T × T} {e : Module × Action}
    {out : List (Str × T)} (h : saveModule arch base model decomp e = .ok out) :
    ∃ es : List Str, es.Nodup ∧ (∀ x ∈ es, x ∈ endings) ∧ out.map Prod.fst = es.map (inAdapter e.1.name) := by
  obtain ⟨m, a⟩ := e
  cases a with
  | nothing => cases h; exact ⟨[], by simp, by simp, rfl⟩
  | full =>
    simp only [saveModule] at h
    obtain ⟨_, _, rfl⟩ := C80_full.mp h
    unfold entry
    cases model (m.name ++ cs!".weight") <;> cases model (m.name ++ cs!".bias") <;> split
    · exact ⟨[], by simp, by simp, rfl⟩
    · exact ⟨[], by simp, by simp, rfl⟩
    · exact ⟨[], by simp, by simp, rfl⟩
    · exact ⟨[cs!".bias"], by simp, by simp [endings], rfl⟩
    · exact ⟨[cs!".weight"], by simp, by simp [endings], rfl⟩
    · exact ⟨[cs!".weight"], by simp, by simp [endings], rfl⟩
    · exact ⟨[cs!".weight"], by simp, by simp [endings], rfl⟩
    · exact ⟨[cs!".weight", cs!".bias"], by decide, by simp [endings], rfl⟩
  | lora =>
    simp only [saveModule] at h
    obtain ⟨x, y, _, _, ⟨_, rfl⟩ | ⟨_, xb, yb, _, _, rfl⟩⟩ := C80_lora_partial.mp h
    · cases decide (m.kind = .embedding) with
      | true => exact ⟨[cs!".lora_embedding_A", cs!".lora_embedding_B"], by decide, by simp [endings], rfl⟩
      | false => exact ⟨[cs!".lora_A.weight", cs!".lora_B.weight"], by decide, by simp [endings], rfl⟩
    · cases decide (m.kind = .embedding) with
      | true => exact ⟨[cs!".lora_embedding_A", cs!".lora_embedding_B", cs!".lora_B.bias"], by decide, by simp [endings], rfl⟩
      | false => exact ⟨[cs!".lora_A.weight", cs!".lora_B.weight", cs!".lora_B.bias"], by decide, by simp [endings], rfl⟩

theorem inAdapter_inj {n n' e e' : Str} (hn : Plain n) (hn' : Plain n') (he : e ∈ endings) (he' : e' ∈ endings) (h : inAdapter n e = inAdapter n' e') :
    n = n' ∧ e = e' := by
  unfold inAdapter at h
  rw [List.append_assoc, List.append_assoc] at h
  exact ending_inj hn hn' he he' (List.append_cancel_left h)

theorem adapter_names {arch : Str → Option Bool} {base model : Str → Option T} {decomp : Bool → T → T × T} {acts : List (Module × Action)}
    {out : List (Str × T)} (h : adapter arch base model decomp acts = .ok out) :
    ∀ x ∈ out.map Prod.fst, ∃ a ∈ acts, ∃ e ∈ endings, x = inAdapter a.1.name e := by
  induction acts generalizing out with
  | nil => cases h; simp
  | cons a acts ih =>
    rw [adapter] at h
    cases h1 : saveModule arch base model decomp a with
    | error e => rw [h1] at h; cases h
    | ok w =>
      rw [h1] at h
      cases h2 : adapter arch base model decomp acts with
      | error e => rw [h2] at h; cases h
      | ok r =>
        rw [h2] at h; cases h
        intro x hx
        rw [List.map_append, List.mem_append] at hx
        rcases hx with hx | hx
        · obtain ⟨es, _, he, hm⟩ := saveModule_names h1
          rw [hm] at hx
          obtain ⟨e, he', rfl⟩ := List.mem_map.mp hx
          exact ⟨a, by simp, e, he e he', rfl⟩
        · obtain ⟨a', ha', h'⟩ := ih h2 x hx
          exact ⟨a', List.mem_cons_of_mem _ ha', h'⟩

/-- C80: the adapter has what is written for each module. -/
theorem C80_all {arch : Str → Option Bool} {base model : Str → Option T} {decomp : Bool → T → T × T} {acts : List (Module × Action)}
    {out : List (Str × T)} : adapter arch base model decomp acts = .ok out ↔
      ∃ os, List.Forall₂ (fun a o => saveModule arch base model decomp a = .ok o) acts os ∧ out = os.flatten := by
  induction acts generalizing out with
  | nil =>
    simp only [adapter, Except.ok.injEq, List.forall₂_nil_left_iff, exists_eq_left, List.flatten_nil]
    exact eq_comm
  | cons a acts ih =>
    rw [adapter]
    constructor
    · intro h
      cases h1 : saveModule arch base model decomp a with
      | error e => rw [h1] at h; cases h
      | ok w =>
        rw [h1] at h
        cases h2 : adapter arch base model decomp acts with
        | error e => rw [h2] at h; cases h
        | ok r =>
          rw [h2] at h; cases h
          obtain ⟨os, ho, rfl⟩ := ih.mp h2
          exact ⟨w :: os, .cons h1 ho, rfl⟩
    · rintro ⟨os, ho, rfl⟩
      cases ho with
      | cons h1 ho =>
        rw [h1]
        simp only [Except.bind]
        rw [ih.mpr ⟨_, ho, rfl⟩]
        rfl

/-- C80: no name is written twice. -/
theorem C80_distinct {arch : Str → Option Bool} {base model : Str → Option T} {decomp : Bool → T → T × T} {acts : List (Module × Action)}
    {out : List (Str × T)} (hn : (acts.map (fun a => a.1.name)).Nodup) (hp : ∀ a ∈ acts, Plain a.1.name)
    (h : adapter arch base model decomp acts = .ok out) : (out.map Prod.fst).Nodup := by
  induction acts generalizing out with
  | nil => cases h; simp
  | cons a acts ih =>
    rw [adapter] at h
    cases h1 : saveModule arch base model decomp a with
    | error e => rw [h1] at h; cases h
    | ok w =>
      rw [h1] at h
      cases h2 : adapter arch base model decomp acts with
      | error e => rw [h2] at h; cases h
      | ok r =>
        rw [h2] at h; cases h
        rw [List.map_cons, List.nodup_cons] at hn
        rw [List.map_append, List.nodup_append]
        obtain ⟨es, hes, he, hm⟩ := saveModule_names h1
        have hpa := hp a (by simp)
        refine ⟨?_, ih hn.2 (fun x hx => hp x (List.mem_cons_of_mem _ hx)) h2, ?_⟩
        · rw [hm]
          exact hes.map_on (fun x hx y hy hxy => (inAdapter_inj hpa hpa (he x hx) (he y hy) hxy).2)
        · intro x hx y hy hxy
          subst hxy
          rw [hm] at hx
          obtain ⟨e, he', rfl⟩ := List.mem_map.mp hx
          obtain ⟨a', ha', e', he'', heq⟩ := adapter_names h2 _ hy
          have := (inAdapter_inj hpa (hp a' (List.mem_cons_of_mem _ ha')) (he e he') he'' heq).1
          exact hn.1 (List.mem_map.mpr ⟨a', ha', this.symm⟩)

/-- The small model of `LoraPlan`, numbers for tensors. -/
example : adapter (T := Int) (fun _ => none) (fun _ => some 3) (fun _ => some 5) (fun _ d => (d, d + 1)) (small.zip [.nothing, .full, .lora]) =
    .ok [(cs!"base_model.model.model.embed.weight", 5), (cs!"base_model.model.model.0.q.lora_A.weight", 2),
      (cs!"base_model.model.model.0.q.lora_B.weight", 3)] := by decide +kernel

example : (small.map (fun m => m.name)).Nodup ∧ ∀ m ∈ small, Plain m.name := by
  refine ⟨by decide, ?_⟩
  intro m hm
  unfold Plain
  rw [← List.isSuffixOf_iff_suffix, ← List.isSuffixOf_iff_suffix]
  revert m
  decide

end Verif.Lora
