import Verif.Props.MoePacked
import Verif.Props.ArchNames
import Mathlib.Data.List.Nodup

/-! # C57: the names written are distinct -/

set_option linter.unusedSectionVars false

namespace Verif.Moe

open Verif.ModelRef (Str)
open Verif.Arch (WeightInfo hasMlp toDigits_inj)
open Verif.Convert (Transform cutAt)

variable {M K V W : Type} [DecidableEq M]

theorem cutAt_first {old pre rest : Str} (hold : old ≠ []) (h : ¬ old <:+: pre ++ old.dropLast) :
    cutAt old (pre ++ old ++ rest) = some (pre, rest) := by
  induction pre with
  | nil =>
    obtain ⟨c, a, rfl⟩ : ∃ c a, old = c :: a := List.exists_cons_of_ne_nil hold
    have hp : (c :: a).isPrefixOf (c :: (a ++ rest)) = true := List.isPrefixOf_iff_prefix.2 ⟨rest, by simp⟩
    simp only [List.nil_append, List.cons_append, cutAt, hp, if_true]
    simp
  | cons c pre ih =>
    have hp : ¬ old.isPrefixOf (c :: (pre ++ old ++ rest)) = true := by
      intro hp
      obtain ⟨b, hb⟩ := List.isPrefixOf_iff_prefix.1 hp
      have hlen : old.length ≤ (c :: (pre ++ old.dropLast)).length := by
        have := List.length_pos_iff.2 hold
        simp
        omega
      refine h (List.IsPrefix.isInfix ?_)
      have e : c :: (pre ++ old ++ rest) = (c :: (pre ++ old.dropLast)) ++ (old.getLast hold :: rest) := by
        conv_lhs => rw [← List.dropLast_append_getLast hold]
        simp
      rw [e] at hb
      exact List.prefix_of_prefix_length_le ⟨b, hb⟩ (List.prefix_append _ _) hlen
    simp only [List.cons_append, cutAt, hp, Bool.false_eq_true, if_false]
    rw [ih (fun hi => h (hi.trans (List.suffix_cons c _).isInfix))]
    rfl

theorem cutAt_none {old s : Str} (hold : old ≠ []) (h : ¬ old <:+: s) : cutAt old s = none := by
  induction s with
  | nil =>
    cases old with
    | nil => exact absurd rfl hold
    | cons c a => rfl
  | cons c s ih =>
    have h1 : ¬ old.isPrefixOf (c :: s) = true := fun hp => h (List.isPrefixOf_iff_prefix.1 hp).isInfix
    simp only [cutAt, h1, Bool.false_eq_true, if_false]
    rw [ih (fun hi => h (hi.trans (List.suffix_cons c s).isInfix))]
    rfl

/-- What comes before and after the only `".mlp."`. -/
def before (name : Str) : Str := ((cutAt cs!".mlp." name).getD ([], [])).1

def after (name : Str) : Str := ((cutAt cs!".mlp." name).getD ([], [])).2

theorem cut_spec {name : Str} (hs : Single name) (hm : hasMlp name = true) :
    name = before name ++ cs!".mlp." ++ after name ∧ ¬ cs!".mlp." <:+: before name ++ cs!".mlp" := by
  obtain ⟨pre, post, h⟩ := (hasMlp_iff _).1 hm
  obtain ⟨h1, h2⟩ := hs pre post h.symm
  have hc : cutAt cs!".mlp." name = some (pre, post) := by
    rw [← h]
    exact cutAt_first (by decide) h1
  have e1 : before name = pre := by unfold before; rw [hc]; rfl
  have e2 : after name = post := by unfold after; rw [hc]; rfl
  rw [e1, e2]
  exact ⟨h.symm, h1⟩

/-- What follows `".mlp."` in the names made from one weight. -/
def restsOf (n : Nat) (word : Option Str) (post : Str) : List Str :=
  (List.range n).map (fun i => cs!"experts." ++ Nat.toDigits 10 i ++ cs!"." ++ post) ++ (word.map (fun w => w ++ cs!"." ++ post)).toList

/-- All names made from one weight. -/
def madeFrom (n : Nat) (word : Option Str) (name : Str) : List Str :=
  if hasMlp name then (restsOf n word (after name)).map (fun r => before name ++ cs!".mlp." ++ r) else [name]

/-- The words used for shared experts. -/
def IsWord (word : Option Str) : Prop := ∀ w, word = some w → w = cs!"shared_expert" ∨ w = cs!"shared_experts"

theorem experts_cancel {i j : Nat} {p q : Str}
    (h : cs!"experts." ++ Nat.toDigits 10 i ++ cs!"." ++ p = cs!"experts." ++ Nat.toDigits 10 j ++ cs!"." ++ q) : i = j ∧ p = q := by
  rw [List.append_assoc, List.append_assoc, List.append_assoc, List.append_assoc] at h
  have h := List.append_cancel_left h
  have h' : Nat.toDigits 10 i ++ '.' :: p = Nat.toDigits 10 j ++ '.' :: q := h
  obtain ⟨h1, _, h3⟩ := Verif.Writer.digits_cancel (Verif.Writer.digits_all i) (Verif.Writer.digits_all j) (by decide) (by decide) h'
  exact ⟨toDigits_inj h1, h3⟩

theorem experts_word {i : Nat} {word : Option Str} (hw : IsWord word) {w p q : Str} (h : word = some w) :
    cs!"experts." ++ Nat.toDigits 10 i ++ cs!"." ++ p ≠ w ++ cs!"." ++ q := by
  rcases hw w h with rfl | rfl <;> simp

theorem restsOf_post {n : Nat} {word : Option Str} (hw : IsWord word) {p q r : Str} (hp : r ∈ restsOf n word p) (hq : r ∈ restsOf n word q) : p = q := by
  unfold restsOf at hp hq
  rcases List.mem_append.1 hp with hp | hp <;> rcases List.mem_append.1 hq with hq | hq
  · obtain ⟨i, _, rfl⟩ := List.mem_map.1 hp
    obtain ⟨j, _, h⟩ := List.mem_map.1 hq
    exact (experts_cancel h).2.symm
  · obtain ⟨i, _, rfl⟩ := List.mem_map.1 hp
    cases hwd : word with
    | none => simp [hwd] at hq
    | some w =>
      rw [hwd] at hq
      simp only [Option.map_some, Option.toList_some, List.mem_singleton] at hq
      exact absurd hq (experts_word hw hwd)
  · obtain ⟨i, _, rfl⟩ := List.mem_map.1 hq
    cases hwd : word with
    | none => simp [hwd] at hp
    | some w =>
      rw [hwd] at hp
      simp only [Option.map_some, Option.toList_some, List.mem_singleton] at hp
      exact absurd hp (experts_word hw hwd)
  · cases hwd : word with
    | none => simp [hwd] at hp
    | some w =>
      rw [hwd] at hp hq
      simp only [Option.map_some, Option.toList_some, List.mem_singleton] at hp hq
      rw [hp] at hq
      exact List.append_cancel_left hq

theorem restsOf_nodup {n : Nat} {word : Option Str} (hw : IsWord word) (p : Str) : (restsOf n word p).Nodup := by
  unfold restsOf
  rw [List.nodup_append]
  refine ⟨?_, ?_, ?_⟩
  · refine (List.nodup_map_iff ?_).2 List.nodup_range
    intro i j h
    exact (experts_cancel h).1
  · cases word <;> simp
  · intro a ha b hb
    obtain ⟨i, _, rfl⟩ := List.mem_map.1 ha
    cases hwd : word with
    | none => simp [hwd] at hb
    | some w =>
      rw [hwd] at hb
      simp only [Option.map_some, Option.toList_some, List.mem_singleton] at hb
      rw [hb]
      exact experts_word hw hwd

theorem made_cut {n : Nat} {word : Option Str} {name x : Str} (hs : Single name) (hx : x ∈ madeFrom n word name) :
    (hasMlp name = false ∧ x = name ∧ cutAt cs!".mlp." x = none) ∨
    (hasMlp name = true ∧ ∃ r ∈ restsOf n word (after name), cutAt cs!".mlp." x = some (before name, r)) := by
  unfold madeFrom at hx
  cases hm : hasMlp name with
  | false =>
    rw [hm] at hx
    simp only [Bool.false_eq_true, if_false, List.mem_singleton] at hx
    refine Or.inl ⟨rfl, hx, ?_⟩
    rw [hx]
    refine cutAt_none (by decide) ?_
    rw [← hasMlp_iff, hm]
    simp
  | true =>
    rw [hm] at hx
    simp only [if_true] at hx
    obtain ⟨r, hr, rfl⟩ := List.mem_map.1 hx
    exact Or.inr ⟨rfl, r, hr, cutAt_first (by decide) (cut_spec hs hm).2⟩

/-- The names made from different weights are different. -/
theorem made_nodup {n : Nat} {word : Option Str} (hw : IsWord word) {names : List Str} (hn : names.Nodup) (hs : ∀ x ∈ names, Single x) :
    (names.flatMap (madeFrom n word)).Nodup := by
  rw [List.nodup_flatMap]
  refine ⟨?_, ?_⟩
  · intro name hname
    unfold madeFrom
    split
    · refine (List.nodup_map_iff ?_).2 (restsOf_nodup hw _)
      intro a b h
      exact List.append_cancel_left h
    · simp
  · refine hn.imp_of_mem ?_
    intro a b ha hb hab x hxa hxb
    rcases made_cut (hs a ha) hxa with ⟨_, h1, h2⟩ | ⟨h1, r, hr, h2⟩ <;> rcases made_cut (hs b hb) hxb with ⟨_, h1', h2'⟩ | ⟨h1', r', hr', h2'⟩
    · exact hab (h1.symm.trans h1')
    · rw [h2] at h2'; cases h2'
    · rw [h2] at h2'; cases h2'
    · rw [h2] at h2'
      simp only [Option.some.injEq, Prod.mk.injEq] at h2'
      obtain ⟨e1, rfl⟩ := h2'
      have e2 := restsOf_post hw hr hr'
      exact hab (by rw [(cut_spec (hs a ha) h1).1, (cut_spec (hs b hb) h1').1, e1, e2])

theorem layer_before (layer : Nat) : ¬ cs!".mlp." <:+: cs!"model.layers." ++ Nat.toDigits 10 layer ++ cs!".mlp" := by
  rintro ⟨a, b, h⟩
  have hp := congrArg (List.count 'p') h
  have hd : ∀ c : Char, c.isDigit = false → List.count c (Nat.toDigits 10 layer) = 0 := by
    intro c hc
    rw [List.count_eq_zero]
    intro hm
    rw [Verif.Writer.digits_all layer c hm] at hc
    cases hc
  simp only [List.count_append, hd 'p' (by decide)] at hp
  have e1 : List.count 'p' cs!"model.layers." = 0 := by decide
  have e2 : List.count 'p' cs!".mlp" = 1 := by decide
  have e3 : List.count 'p' cs!".mlp." = 1 := by decide
  rw [e1, e2, e3] at hp
  have hb0 : List.count 'p' b = 0 := by omega
  -- the text ends in 'p'
  have hl := congrArg List.getLast? h
  have e4 : List.getLast? (cs!"model.layers." ++ Nat.toDigits 10 layer ++ cs!".mlp") = some 'p' := by
    rw [List.getLast?_append]
    rfl
  have e5 : List.getLast? (a ++ cs!".mlp.") = some '.' := by
    rw [List.getLast?_append]
    rfl
  rw [e4, List.getLast?_append, e5] at hl
  cases hb : b.getLast? with
  | none => rw [hb] at hl; simp at hl
  | some c =>
    rw [hb] at hl
    simp only [Option.some_or, Option.some.injEq] at hl
    subst hl
    have := List.count_pos_iff.2 (List.mem_of_getLast? hb)
    omega

theorem layerName_cut (layer : Nat) (what : Str) :
    cutAt cs!".mlp." (layerName layer what) = some (cs!"model.layers." ++ Nat.toDigits 10 layer, what) := by
  unfold layerName
  exact cutAt_first (by decide) (layer_before layer)

theorem layerName_inj {l l' : Nat} {w w' : Str} (h : layerName l w = layerName l' w') : l = l' ∧ w = w' := by
  have := congrArg (cutAt cs!".mlp.") h
  rw [layerName_cut, layerName_cut] at this
  simp only [Option.some.injEq, Prod.mk.injEq] at this
  exact ⟨toDigits_inj (List.append_cancel_left this.1), this.2⟩

/-- Names for whole layers do not collide with those made from weights. -/
theorem layer_not_made {n : Nat} {word : Option Str} {name : Str} (hs : Single name) {layer : Nat} {what : Str}
    (hwhat : ∀ p, what ∉ restsOf n word p) : layerName layer what ∉ madeFrom n word name := by
  intro hx
  rcases made_cut hs hx with ⟨_, _, h⟩ | ⟨_, r, hr, h⟩
  · rw [layerName_cut] at h; cases h
  · rw [layerName_cut] at h
    simp only [Option.some.injEq, Prod.mk.injEq] at h
    rw [← h.2] at hr
    exact hwhat _ hr

theorem gate_rests {n : Nat} {word : Option Str} (hw : IsWord word) {what : Str} (h : what = cs!"gate.weight" ∨ what = cs!"shared_expert_gate.weight") (p : Str) :
    what ∉ restsOf n word p := by
  intro hm
  unfold restsOf at hm
  rcases List.mem_append.1 hm with hm | hm
  · obtain ⟨i, _, e⟩ := List.mem_map.1 hm
    rcases h with rfl | rfl <;> simp at e
  · cases hwd : word with
    | none => simp [hwd] at hm
    | some w =>
      rw [hwd] at hm
      simp only [Option.map_some, Option.toList_some, List.mem_singleton] at hm
      rcases h with rfl | rfl <;> rcases hw w hwd with rfl | rfl <;> simp at hm

/-! ## Names of saved tensors -/

theorem copyOut_names {ops : Ops V K} {w : WeightInfo} {l : Option (Loader V)} {e : Option (Expert M K)} {down : Bool} {out : Str} {x : List (Str × V)}
    (h : asList (copyOut ops w l e down out) = .ok x) : (x.map Prod.fst).Sublist [out] := by
  unfold asList copyOut at h
  cases ha : copyAliases w with
  | error e => rw [ha] at h; cases h
  | ok as =>
    rw [ha] at h
    simp only at h
    cases l with
    | none => cases h
    | some l =>
      simp only at h
      cases hg : get l w.name as with
      | none =>
        rw [hg] at h
        simp only at h
        split at h
        · cases h; simp
        · cases h
      | some t =>
        rw [hg] at h
        cases e with
        | none => cases h; simp
        | some e => cases h; simp

theorem flatMap_sublist {α β : Type} {f g : α → List β} {l : List α} (h : ∀ a ∈ l, (f a).Sublist (g a)) : (l.flatMap f).Sublist (l.flatMap g) := by
  induction l with
  | nil => simp
  | cons a l ih =>
    rw [List.flatMap_cons, List.flatMap_cons]
    exact (h a (by simp)).append (ih (fun b hb => h b (by simp [hb])))

theorem copyExperts_names {ops : Ops V K} {disk : M → Loader V} {c : Config M K} {w : WeightInfo} {xs : List (Str × V)}
    (h : copyExperts ops disk c w = .ok xs) : (xs.map Prod.fst).Sublist ((List.range c.experts.length).map (expertName w.name)) := by
  unfold copyExperts at h
  obtain ⟨rfl, hall⟩ := each_ok h
  rw [List.map_flatMap]
  have hz : (List.range c.experts.length) = c.experts.zipIdx.map Prod.snd := by simp [List.range_eq_range']
  rw [hz, List.map_map, ← List.flatMap_pure_eq_map]
  refine flatMap_sublist ?_
  intro a ha
  exact copyOut_names (hall a ha)

theorem mlp_names {ops : Ops V K} {disk : M → Loader V} {c : Config M K} {w : WeightInfo} {xs zs : List (Str × V)} {word : Option Str}
    (hs : Single w.name) (hm : hasMlp w.name = true) (hx : copyExperts ops disk c w = .ok xs)
    (hz : (zs.map Prod.fst).Sublist (word.map (fun wd => sharedName wd w.name)).toList) :
    ((xs ++ zs).map Prod.fst).Sublist (madeFrom c.experts.length word w.name) := by
  obtain ⟨e, _⟩ := cut_spec hs hm
  have hs' : Single (before w.name ++ cs!".mlp." ++ after w.name) := by rw [← e]; exact hs
  have h1 : ∀ i, expertName w.name i = before w.name ++ cs!".mlp." ++ (cs!"experts." ++ Nat.toDigits 10 i ++ cs!"." ++ after w.name) := by
    intro i
    conv_lhs => rw [e]
    rw [expertName_eq hs' i]
    simp [List.append_assoc]
  have h2 : ∀ wd, sharedName wd w.name = before w.name ++ cs!".mlp." ++ (wd ++ cs!"." ++ after w.name) := by
    intro wd
    conv_lhs => rw [e]
    rw [sharedName_eq hs' wd]
    simp [List.append_assoc]
  unfold madeFrom restsOf
  rw [if_pos hm, List.map_append, List.map_append, List.map_map]
  refine List.Sublist.append ?_ ?_
  · have := copyExperts_names hx
    rw [show (List.range c.experts.length).map (expertName w.name) = (List.range c.experts.length).map
      ((fun r => before w.name ++ cs!".mlp." ++ r) ∘ fun i => cs!"experts." ++ Nat.toDigits 10 i ++ cs!"." ++ after w.name) from
      List.map_congr_left (fun i _ => h1 i)] at this
    exact this
  · cases word with
    | none => simpa using hz
    | some wd => simpa [h2 wd] using hz

theorem deepseek_names {ops : Ops V K} {disk : M → Loader V} {c : Config M K} {w : WeightInfo} {x : List (Str × V)} (hs : Single w.name)
    (h : deepseekWeight ops disk c w = .ok x) :
    (x.map Prod.fst).Sublist (madeFrom c.experts.length (some cs!"shared_experts") w.name) := by
  unfold deepseekWeight at h
  cases hm : hasMlp w.name with
  | false =>
    rw [hm] at h
    simp only [Bool.false_eq_true, if_false] at h
    unfold madeFrom
    rw [hm]
    exact copyOut_names h
  | true =>
    rw [hm] at h
    simp only [if_true] at h
    cases hx : copyExperts ops disk c w with
    | error e => rw [hx] at h; cases h
    | ok xs =>
      rw [hx] at h
      simp only at h
      cases hsh : c.sharedList with
      | nil =>
        rw [hsh] at h
        cases h
        have := mlp_names (zs := []) (word := some cs!"shared_experts") hs hm hx (by simp)
        simpa using this
      | cons s rest =>
        rw [hsh] at h
        simp only at h
        cases hz : asList (copyOut ops w (loaderFor disk c s.source) (some s) (hasDown w.name) (sharedName cs!"shared_experts" w.name)) with
        | error e => rw [hz] at h; cases h
        | ok zs =>
          rw [hz] at h
          cases h
          exact mlp_names (word := some cs!"shared_experts") hs hm hx (copyOut_names hz)

theorem saveRouters_names (ops : Ops V K) (what : Str) (routers : List V) :
    (saveRouters ops what routers).map Prod.fst = (List.range routers.length).map (fun l => layerName l what) := by
  unfold saveRouters
  have hz : (List.range routers.length) = routers.zipIdx.map Prod.snd := by simp [List.range_eq_range']
  rw [hz, List.map_map, List.map_map]
  rfl

theorem layers_nodup (n : Nat) (what : Str) : ((List.range n).map (fun l => layerName l what)).Nodup :=
  (List.nodup_map_iff (fun _ _ h => (layerName_inj h).1)).2 List.nodup_range

/-- C57: in the DeepSeek layout no tensor is written over another one, for every number of experts and layers. -/
theorem C57_deepseek_distinct {ops : Ops V K} {disk : M → Loader V} {c : Config M K} {weights : List WeightInfo} {routers : List V}
    {saved : List (Str × V)} (hnd : (weights.map WeightInfo.name).Nodup) (hsingle : ∀ w ∈ weights, Single w.name)
    (h : writeDeepseek ops disk c weights routers = .ok saved) : (saved.map Prod.fst).Nodup := by
  unfold writeDeepseek at h
  cases he : each (deepseekWeight ops disk c) weights with
  | error e => rw [he] at h; cases h
  | ok ys =>
    rw [he] at h
    cases h
    obtain ⟨rfl, hall⟩ := each_ok he
    have hword : IsWord (some cs!"shared_experts") := by
      intro w h
      cases h
      exact Or.inr rfl
    have hsub : ((weights.flatMap (fun w => val (deepseekWeight ops disk c w))).map Prod.fst).Sublist
        ((weights.map WeightInfo.name).flatMap (madeFrom c.experts.length (some cs!"shared_experts"))) := by
      rw [List.map_flatMap, List.flatMap_map]
      exact flatMap_sublist (fun w hw => deepseek_names (hsingle w hw) (hall w hw))
    have hs' : ∀ x ∈ weights.map WeightInfo.name, Single x := by
      intro x hx
      obtain ⟨w, hw, rfl⟩ := List.mem_map.1 hx
      exact hsingle w hw
    rw [List.map_append, saveRouters_names, List.nodup_append]
    refine ⟨(made_nodup hword hnd hs').sublist hsub, layers_nodup _ _, ?_⟩
    intro a ha b hb hab
    subst hab
    obtain ⟨l, _, rfl⟩ := List.mem_map.1 hb
    obtain ⟨x, hx, hm⟩ := List.mem_flatMap.1 (hsub.subset ha)
    exact layer_not_made (hs' x hx) (gate_rests hword (Or.inl rfl)) hm

theorem qwen_names {ops : Ops V K} {disk : M → Loader V} {c : Config M K} {s : Expert M K} {w : WeightInfo} {x : List (Str × V)} (hs : Single w.name)
    (h : qwenWeight ops disk c s w = .ok x) :
    (x.map Prod.fst).Sublist (madeFrom c.experts.length (some cs!"shared_expert") w.name) := by
  unfold qwenWeight at h
  cases hm : hasMlp w.name with
  | false =>
    rw [hm] at h
    simp only [Bool.false_eq_true, if_false] at h
    unfold madeFrom
    rw [hm]
    unfold qwenBase at h
    split at h
    · cases h; simp
    · split at h
      · cases h; simp
      · split at h
        · cases h; simp
        · cases h
  | true =>
    rw [hm] at h
    simp only [if_true] at h
    cases hx : copyExperts ops disk c w with
    | error e => rw [hx] at h; cases h
    | ok xs =>
      rw [hx] at h
      simp only at h
      cases hz : asList (copyOut ops w (loaderFor disk c s.source) (some s) (hasDown w.name) (sharedName cs!"shared_expert" w.name)) with
      | error e => rw [hz] at h; cases h
      | ok zs =>
        rw [hz] at h
        cases h
        exact mlp_names (word := some cs!"shared_expert") hs hm hx (copyOut_names hz)

theorem qwenRouters_names {ops : Ops V K} {k : Nat} {rs gs : List V} {ys : List (Str × V)} (h : qwenRouters ops k rs gs = .ok ys) :
    ys.map Prod.fst = (List.range' k rs.length).flatMap (fun l => [layerName l cs!"gate.weight", layerName l cs!"shared_expert_gate.weight"]) := by
  induction rs generalizing k gs ys with
  | nil =>
    simp only [qwenRouters, Except.ok.injEq] at h
    subst h
    rfl
  | cons r rs ih =>
    cases gs with
    | nil => simp [qwenRouters] at h
    | cons g gs =>
      simp only [qwenRouters] at h
      cases hr : qwenRouters ops (k + 1) rs gs with
      | error e => rw [hr] at h; cases h
      | ok zs =>
        rw [hr] at h
        cases h
        rw [List.map_append, ih hr, List.length_cons, List.range'_succ, List.flatMap_cons]
        rfl

/-- C57: the same for the Qwen layout. -/
theorem C57_qwen_distinct {ops : Ops V K} {disk : M → Loader V} {c : Config M K} {weights : List WeightInfo} {routers sharedRouters : List V}
    {saved : List (Str × V)} (hnd : (weights.map WeightInfo.name).Nodup) (hsingle : ∀ w ∈ weights, Single w.name)
    (h : writeQwen ops disk c weights routers sharedRouters = .ok saved) : (saved.map Prod.fst).Nodup := by
  unfold writeQwen at h
  cases hs : c.shared with
  | none => rw [hs] at h; cases h
  | some l =>
    cases l with
    | nil => rw [hs] at h; cases h
    | cons s rest =>
      rw [hs] at h
      simp only at h
      cases he : each (qwenWeight ops disk c s) weights with
      | error e => rw [he] at h; cases h
      | ok ys =>
        rw [he] at h
        simp only at h
        cases hr : qwenRouters ops 0 routers sharedRouters with
        | error e => rw [hr] at h; cases h
        | ok zs =>
          rw [hr] at h
          cases h
          obtain ⟨rfl, hall⟩ := each_ok he
          have hword : IsWord (some cs!"shared_expert") := by
            intro w h
            cases h
            exact Or.inl rfl
          have hsub : ((weights.flatMap (fun w => val (qwenWeight ops disk c s w))).map Prod.fst).Sublist
              ((weights.map WeightInfo.name).flatMap (madeFrom c.experts.length (some cs!"shared_expert"))) := by
            rw [List.map_flatMap, List.flatMap_map]
            exact flatMap_sublist (fun w hw => qwen_names (hsingle w hw) (hall w hw))
          have hs' : ∀ x ∈ weights.map WeightInfo.name, Single x := by
            intro x hx
            obtain ⟨w, hw, rfl⟩ := List.mem_map.1 hx
            exact hsingle w hw
          rw [List.map_append, qwenRouters_names hr, List.nodup_append]
          refine ⟨(made_nodup hword hnd hs').sublist hsub, ?_, ?_⟩
          · rw [List.nodup_flatMap]
            refine ⟨?_, ?_⟩
            · intro l _
              rw [List.nodup_cons]
              refine ⟨?_, by simp⟩
              intro hm
              have := (layerName_inj (List.mem_singleton.1 hm)).2
              exact absurd this (by decide)
            · refine (List.nodup_range' (s := 0) (n := routers.length) (step := 1)).imp ?_
              intro a b hab x hxa hxb
              simp only [List.mem_cons, List.not_mem_nil, or_false] at hxa hxb
              rcases hxa with rfl | rfl <;> rcases hxb with hxb | hxb <;> exact hab (layerName_inj hxb).1
          · intro a ha b hb hab
            subst hab
            obtain ⟨l, _, hb⟩ := List.mem_flatMap.1 hb
            obtain ⟨x, hx, hm⟩ := List.mem_flatMap.1 (hsub.subset ha)
            simp only [List.mem_cons, List.not_mem_nil, or_false] at hb
            rcases hb with rfl | rfl
            · exact layer_not_made (hs' x hx) (gate_rests hword (Or.inl rfl)) hm
            · exact layer_not_made (hs' x hx) (gate_rests hword (Or.inr rfl)) hm

/-- Names of the packed layouts. -/
theorem packed_names {ops : Ops V K} {disk : M → Loader V} {c : Config M K} {k : Packed V} {layer : Nat} {x : List (Str × V)}
    (h : packLayer ops disk c k layer = .ok x) :
    x.map Prod.fst = [layerName layer cs!"experts.gate_up_proj", layerName layer cs!"experts.down_proj"] := by
  unfold packLayer at h
  cases hr : readLayer ops disk c k.params layer with
  | error e => rw [hr] at h; cases h
  | ok xs =>
    rw [hr] at h
    simp only at h
    unfold convertSave at h
    cases h1 : Verif.Convert.convertTensors k.transforms (partsOf false xs) (layerName layer cs!"experts.gate_up_proj") with
    | none => rw [h1] at h; cases h
    | some a =>
      rw [h1] at h
      simp only at h
      cases h2 : Verif.Convert.convertTensors k.transforms (partsOf true xs) (layerName layer cs!"experts.down_proj") with
      | none => rw [h2] at h; cases h
      | some b => rw [h2] at h; cases h; rfl

/-- Distinctness for the packed layouts. -/
theorem packed_distinct {ops : Ops V K} {disk : M → Loader V} {c : Config M K} {k : Packed V} {weights : List WeightInfo} {routers : List V}
    {f : WeightInfo → Except Err (List (Str × V))} {xs ys : List (Str × V)} {numLayers : Nat}
    (hnd : (weights.map WeightInfo.name).Nodup)
    (hf : ∀ w ∈ weights, ∀ x, f w = .ok x → (x.map Prod.fst).Sublist (if hasMlp w.name then [] else [w.name]))
    (hx : each f weights = .ok xs) (hy : each (packLayer ops disk c k) (List.range numLayers) = .ok ys) :
    ((xs ++ ys ++ saveRouters ops cs!"gate.weight" routers).map Prod.fst).Nodup := by
  obtain ⟨rfl, hall⟩ := each_ok hx
  obtain ⟨rfl, hall'⟩ := each_ok hy
  have hsub : ((weights.flatMap (fun w => val (f w))).map Prod.fst).Sublist (weights.flatMap (fun w => if hasMlp w.name then [] else [w.name])) := by
    rw [List.map_flatMap]
    exact flatMap_sublist (fun w hw => hf w hw _ (hall w hw))
  have hsub' : (weights.flatMap (fun w => if hasMlp w.name then [] else [w.name])).Sublist (weights.map WeightInfo.name) := by
    rw [← List.flatMap_pure_eq_map]
    refine flatMap_sublist ?_
    intro w _
    split
    · exact List.nil_sublist _
    · exact List.Sublist.refl _
  have hnot : ∀ a ∈ (weights.flatMap (fun w => val (f w))).map Prod.fst, cutAt cs!".mlp." a = none := by
    intro a ha
    obtain ⟨w, hw, hm⟩ := List.mem_flatMap.1 (hsub.subset ha)
    split at hm
    · simp at hm
    · rename_i hmlp
      rw [List.mem_singleton] at hm
      subst hm
      refine cutAt_none (by decide) ?_
      rw [← hasMlp_iff]
      exact hmlp
  have hys : ((List.range numLayers).flatMap (fun l => val (packLayer ops disk c k l))).map Prod.fst =
      (List.range numLayers).flatMap (fun l => [layerName l cs!"experts.gate_up_proj", layerName l cs!"experts.down_proj"]) := by
    rw [List.map_flatMap]
    exact List.flatMap_congr (fun l hl => packed_names (hall' l hl))
  rw [List.map_append, List.map_append, saveRouters_names, hys, List.nodup_append, List.nodup_append]
  refine ⟨⟨(hnd.sublist hsub').sublist hsub, ?_, ?_⟩, layers_nodup _ _, ?_⟩
  · rw [List.nodup_flatMap]
    refine ⟨?_, ?_⟩
    · intro l _
      rw [List.nodup_cons]
      refine ⟨?_, by simp⟩
      intro hm
      exact absurd (layerName_inj (List.mem_singleton.1 hm)).2 (by decide)
    · refine (List.nodup_range (n := numLayers)).imp ?_
      intro a b hab x hxa hxb
      simp only [List.mem_cons, List.not_mem_nil, or_false] at hxa hxb
      rcases hxa with rfl | rfl <;> rcases hxb with hxb | hxb <;> exact hab (layerName_inj hxb).1
  · intro a ha b hb hab
    subst hab
    obtain ⟨l, _, hb⟩ := List.mem_flatMap.1 hb
    simp only [List.mem_cons, List.not_mem_nil, or_false] at hb
    have := hnot a ha
    rcases hb with rfl | rfl <;> (rw [layerName_cut] at this; cases this)
  · intro a ha b hb hab
    subst hab
    obtain ⟨l, _, rfl⟩ := List.mem_map.1 hb
    rcases List.mem_append.1 ha with ha | ha
    · have := hnot _ ha
      rw [layerName_cut] at this
      cases this
    · obtain ⟨l', _, ha⟩ := List.mem_flatMap.1 ha
      simp only [List.mem_cons, List.not_mem_nil, or_false] at ha
      rcases ha with ha | ha <;> exact absurd (layerName_inj ha).2 (by decide)

/-- C57: the same for the Mixtral layout. -/
theorem C57_mixtral_distinct {ops : Ops V K} {disk : M → Loader V} {c : Config M K} {weights : List WeightInfo} {transforms : List (Transform V)}
    {numLayers : Nat} {routers : List V} {saved : List (Str × V)} (hnd : (weights.map WeightInfo.name).Nodup)
    (h : writeMixtral ops disk c weights transforms numLayers routers = .ok saved) : (saved.map Prod.fst).Nodup := by
  unfold writeMixtral at h
  split at h
  · cases h
  · cases he : each (fun w => if hasMlp w.name then .ok [] else asList (copyOut ops w (loaderFor disk c c.base) (none : Option (Expert M K)) false w.name)) weights with
    | error e => rw [he] at h; cases h
    | ok xs =>
      rw [he] at h
      simp only at h
      cases hl : each (packLayer ops disk c { params := mixtralParams, transforms := transforms }) (List.range numLayers) with
      | error e => rw [hl] at h; cases h
      | ok ys =>
        rw [hl] at h
        cases h
        refine packed_distinct hnd ?_ he hl
        intro w _ x hx
        split at hx
        · cases hx; simp
        · rename_i hm
          rw [if_neg hm]
          exact copyOut_names hx

/-- C57: the same for the Qwen3 layout. -/
theorem C57_qwen3_distinct {ops : Ops V K} {disk : M → Loader V} {c : Config M K} {weights : List WeightInfo} {transforms : List (Transform V)}
    {numLayers : Nat} {routers : List V} {saved : List (Str × V)} (hnd : (weights.map WeightInfo.name).Nodup)
    (h : writeQwen3 ops disk c weights transforms numLayers routers = .ok saved) : (saved.map Prod.fst).Nodup := by
  unfold writeQwen3 at h
  cases he : each (fun w => if hasMlp w.name then .ok [] else qwen3Base ops (disk c.base) w) weights with
  | error e => rw [he] at h; cases h
  | ok xs =>
    rw [he] at h
    simp only at h
    cases hl : each (packLayer ops disk c { params := qwen3Params, transforms := transforms }) (List.range numLayers) with
    | error e => rw [hl] at h; cases h
    | ok ys =>
      rw [hl] at h
      cases h
      refine packed_distinct hnd ?_ he hl
      intro w _ x hx
      split at hx
      · cases hx; simp
      · rename_i hm
        rw [if_neg hm]
        unfold qwen3Base at hx
        split at hx
        · cases hx; simp
        · split at hx
          · cases hx; simp
          · cases hx

end Verif.Moe
