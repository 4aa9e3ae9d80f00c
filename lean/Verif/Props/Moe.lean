import Verif.Model.Moe
import Verif.Props.Convert
import Mathlib.Data.List.Infix
import Mathlib.Tactic.Common

/-! # C57, C58: mixture-of-experts merges -/

set_option linter.unusedSectionVars false

namespace Verif.Moe

open Verif.ModelRef (Str)
open Verif.Arch (WeightInfo hasMlp)

variable {M K V W : Type} [DecidableEq M]

/-! ## Specification -/

/-- `t` is what a checkpoint stores under the first of the names that it has. -/
def FirstStored (l : Loader V) (names : List Str) (t : V) : Prop :=
  ∃ pre n post, names = pre ++ n :: post ∧ l n = some t ∧ ∀ m ∈ pre, l m = none

/-- The names a weight can have: its own, the alternative ones, and those of weights it can be tied to unless it is optional. -/
def namesOf (w : WeightInfo) : List Str := w.name :: (w.aliases.getD [] ++ if w.optional then [] else w.tiedNames.getD [])

/-- A tensor of an expert as it goes into the checkpoint: with noise if there is a noise scale, and scaled if it is a down projection and there
is a residual scale. -/
def prepared (ops : Ops V K) (e : Expert M K) (out : Str) (down : Bool) (t : V) : V :=
  match e.noiseScale, down, e.residualScale with
  | none, false, _ => ops.cast t
  | none, true, none => ops.cast t
  | none, true, some r => ops.cast (ops.scale r t)
  | some s, false, _ => ops.cast (ops.noise out s t)
  | some s, true, none => ops.cast (ops.noise out s t)
  | some s, true, some r => ops.cast (ops.scale r (ops.noise out s t))

/-- `".mlp."` occurs at most once. -/
def Single (name : Str) : Prop :=
  ∀ pre post, name = pre ++ cs!".mlp." ++ post → ¬ cs!".mlp." <:+: pre ++ cs!".mlp" ∧ ¬ cs!".mlp." <:+: post

/-- The feed-forward weights of the experts and of the shared expert, each in its slot. -/
inductive ExpertPart (ops : Ops V K) (disk : M → Loader V) (c : Config M K) (weights : List WeightInfo) (word : Str) : Str × V → Prop
  | expert (w : WeightInfo) (pre post : Str) (i : Nat) (e : Expert M K) (t : V) (hw : w ∈ weights) (hn : w.name = pre ++ cs!".mlp." ++ post)
      (he : c.experts[i]? = some e) (ht : FirstStored (disk e.source) (namesOf w) t) :
      ExpertPart ops disk c weights word (pre ++ cs!".mlp.experts." ++ Nat.toDigits 10 i ++ cs!"." ++ post,
        prepared ops e (pre ++ cs!".mlp.experts." ++ Nat.toDigits 10 i ++ cs!"." ++ post) (decide (cs!"down_proj" <:+: w.name)) t)
  | shared (w : WeightInfo) (pre post : Str) (e : Expert M K) (rest : List (Expert M K)) (t : V) (hw : w ∈ weights)
      (hn : w.name = pre ++ cs!".mlp." ++ post) (he : c.shared = some (e :: rest)) (ht : FirstStored (disk e.source) (namesOf w) t) :
      ExpertPart ops disk c weights word (pre ++ cs!".mlp." ++ word ++ cs!"." ++ post,
        prepared ops e (pre ++ cs!".mlp." ++ word ++ cs!"." ++ post) (decide (cs!"down_proj" <:+: w.name)) t)

/-- Every other weight comes from the base model. -/
def BasePart (ops : Ops V K) (disk : M → Loader V) (c : Config M K) (weights : List WeightInfo) (x : Str × V) : Prop :=
  ∃ w ∈ weights, ¬ cs!".mlp." <:+: w.name ∧ x.1 = w.name ∧ ∃ t, FirstStored (disk c.base) (namesOf w) t ∧ x.2 = ops.cast t

/-- One router per layer. -/
def RouterPart (ops : Ops V K) (what : Str) (routers : List V) (x : Str × V) : Prop :=
  ∃ layer r, routers[layer]? = some r ∧ x = (cs!"model.layers." ++ Nat.toDigits 10 layer ++ cs!".mlp." ++ what, ops.cast r)

/-! ## Text -/

theorem any_prefix_iff (old s : Str) : s.tails.any (fun t => old.isPrefixOf t) = true ↔ old <:+: s := by
  rw [List.any_eq_true]
  constructor
  · rintro ⟨t, ht, hp⟩
    exact (List.isPrefixOf_iff_prefix.1 hp).isInfix.trans ((List.mem_tails _ _).1 ht).isInfix
  · rintro ⟨a, b, h⟩
    exact ⟨old ++ b, (List.mem_tails _ _).2 ⟨a, by rw [← h]; simp⟩, List.isPrefixOf_iff_prefix.2 ⟨b, rfl⟩⟩

theorem hasMlp_iff (s : Str) : hasMlp s = true ↔ cs!".mlp." <:+: s := any_prefix_iff _ s

theorem hasDown_iff (s : Str) : hasDown s = true ↔ cs!"down_proj" <:+: s := any_prefix_iff _ s

theorem hasDown_eq (s : Str) : hasDown s = decide (cs!"down_proj" <:+: s) := by
  rw [Bool.eq_iff_iff, hasDown_iff, decide_eq_true_eq]

theorem replaceFrom_skip (old new a s : Str) : replaceFrom old new a.length (a ++ s) = replaceFrom old new 0 s := by
  induction a with
  | nil => rfl
  | cons c a ih => simp only [List.length_cons, List.cons_append, replaceFrom, ih]

theorem replaceFrom_none {old new s : Str} (hold : old ≠ []) (h : ¬ old <:+: s) : replaceFrom old new 0 s = s := by
  induction s with
  | nil => rfl
  | cons c s ih =>
    have h1 : ¬ old.isPrefixOf (c :: s) = true := fun hp => h (List.isPrefixOf_iff_prefix.1 hp).isInfix
    simp only [replaceFrom, h1, Bool.false_eq_true, if_false]
    rw [ih (fun hi => h (hi.trans (List.suffix_cons c s).isInfix))]

/-- Replacing a text that occurs once. -/
theorem replace_once {old new pre post : Str} (hold : old ≠ []) (h1 : ¬ old <:+: pre ++ old.dropLast) (h2 : ¬ old <:+: post) :
    replace old new (pre ++ old ++ post) = pre ++ new ++ post := by
  unfold replace
  induction pre with
  | nil =>
    obtain ⟨c, a, rfl⟩ : ∃ c a, old = c :: a := List.exists_cons_of_ne_nil hold
    have hp : (c :: a).isPrefixOf (c :: (a ++ post)) = true := List.isPrefixOf_iff_prefix.2 ⟨post, by simp⟩
    simp only [List.nil_append, List.cons_append, replaceFrom, hp, if_true, List.length_cons, Nat.add_sub_cancel]
    rw [replaceFrom_skip, replaceFrom_none hold h2]
  | cons c pre ih =>
    have hp : ¬ old.isPrefixOf (c :: (pre ++ old ++ post)) = true := by
      intro hp
      obtain ⟨b, hb⟩ := List.isPrefixOf_iff_prefix.1 hp
      have hlen : old.length ≤ (c :: (pre ++ old.dropLast)).length := by
        have := List.length_pos_iff.2 hold
        simp
        omega
      refine h1 (List.IsPrefix.isInfix ?_)
      have e : c :: (pre ++ old ++ post) = (c :: (pre ++ old.dropLast)) ++ (old.getLast hold :: post) := by
        conv_lhs => rw [← List.dropLast_append_getLast hold]
        simp
      rw [e] at hb
      exact List.prefix_of_prefix_length_le ⟨b, hb⟩ (List.prefix_append _ _) hlen
    simp only [List.cons_append, replaceFrom, hp, Bool.false_eq_true, if_false]
    rw [ih (fun hi => h1 (hi.trans (List.suffix_cons c _).isInfix))]

theorem expertName_eq {pre post : Str} (h : Single (pre ++ cs!".mlp." ++ post)) (i : Nat) :
    expertName (pre ++ cs!".mlp." ++ post) i = pre ++ cs!".mlp.experts." ++ Nat.toDigits 10 i ++ cs!"." ++ post := by
  obtain ⟨h1, h2⟩ := h pre post rfl
  unfold expertName
  rw [replace_once (by decide) h1 h2]
  simp [List.append_assoc]

theorem sharedName_eq {pre post : Str} (h : Single (pre ++ cs!".mlp." ++ post)) (word : Str) :
    sharedName word (pre ++ cs!".mlp." ++ post) = pre ++ cs!".mlp." ++ word ++ cs!"." ++ post := by
  obtain ⟨h1, h2⟩ := h pre post rfl
  unfold sharedName
  rw [replace_once (by decide) h1 h2]
  simp [List.append_assoc]

/-! ## Steps -/

/-- What a step yields. -/
def val {α : Type} (r : Except Err (List α)) : List α := match r with
  | .ok x => x
  | .error _ => []

theorem each_ok {α β : Type} {f : α → Except Err (List β)} {l : List α} {ys : List β} (h : each f l = .ok ys) :
    ys = l.flatMap (fun a => val (f a)) ∧ ∀ a ∈ l, f a = .ok (val (f a)) := by
  induction l generalizing ys with
  | nil =>
    simp only [each, Except.ok.injEq] at h
    subst h
    simp
  | cons a l ih =>
    unfold each at h
    cases hf : f a with
    | error e => rw [hf] at h; cases h
    | ok x =>
      rw [hf] at h
      simp only at h
      cases he : each f l with
      | error e => rw [he] at h; cases h
      | ok y =>
        rw [he] at h
        simp only [Except.ok.injEq] at h
        obtain ⟨h1, h2⟩ := ih he
        subst h
        refine ⟨by rw [List.flatMap_cons, hf, ← h1]; rfl, ?_⟩
        intro b hb
        rcases List.mem_cons.1 hb with rfl | hb
        · rw [hf]; rfl
        · exact h2 b hb

theorem each_total {α β : Type} {f : α → Except Err (List β)} {l : List α} (h : ∀ a ∈ l, ∃ x, f a = .ok x) : ∃ ys, each f l = .ok ys := by
  induction l with
  | nil => exact ⟨[], rfl⟩
  | cons a l ih =>
    obtain ⟨x, hx⟩ := h a (by simp)
    obtain ⟨ys, hys⟩ := ih (fun b hb => h b (by simp [hb]))
    exact ⟨x ++ ys, by simp only [each, hx, hys]⟩

theorem each_error {α β : Type} {f : α → Except Err (List β)} {l : List α} {a : α} (ha : a ∈ l) {e : Err} (h : f a = .error e) (ys : List β) :
    each f l ≠ .ok ys := by
  intro hy
  have := (each_ok hy).2 a ha
  rw [h] at this
  cases this

theorem get_some_iff (l : Loader V) (name : Str) (aliases : List Str) (t : V) :
    get l name aliases = some t ↔ FirstStored l (name :: aliases) t := by
  unfold get FirstStored
  rw [List.findSome?_eq_some_iff]

theorem get_none_iff (l : Loader V) (name : Str) (aliases : List Str) :
    get l name aliases = none ↔ ∀ n ∈ name :: aliases, l n = none := by
  unfold get
  rw [List.findSome?_eq_none_iff]

theorem copyAliases_names {w : WeightInfo} {as : List Str} (h : copyAliases w = .ok as) : w.name :: as = namesOf w := by
  unfold copyAliases at h
  unfold namesOf
  cases ha : w.aliases.getD [] with
  | nil =>
    cases ho : w.optional with
    | true => rw [ha, ho] at h; cases h; rfl
    | false => rw [ha, ho] at h; cases h; rfl
  | cons x xs =>
    cases ho : w.optional with
    | true => rw [ha, ho] at h; cases h; simp
    | false =>
      cases ht : w.tiedNames.getD [] with
      | nil => rw [ha, ho, ht] at h; cases h
      | cons y ys => rw [ha, ho, ht] at h; cases h; rfl

theorem cast_noise (ops : Ops V K) (e : Expert M K) (out : Str) (t : V) (down : Bool) :
    ops.cast (noiseAndScale ops out t e down) = prepared ops e out down t := by
  unfold noiseAndScale prepared
  cases e.noiseScale <;> cases down <;> cases e.residualScale <;> rfl

/-- What a copy saves. -/
theorem copyOut_expert {ops : Ops V K} {w : WeightInfo} {l : Loader V} {e : Expert M K} {down : Bool} {out : Str} {x : List (Str × V)}
    (h : asList (copyOut ops w (some l) (some e) down out) = .ok x) :
    (∀ y, y ∈ x ↔ ∃ t, FirstStored l (namesOf w) t ∧ y = (out, prepared ops e out down t)) ∧
      (w.optional = false → ∃ t, FirstStored l (namesOf w) t) := by
  unfold asList copyOut at h
  cases ha : copyAliases w with
  | error e => rw [ha] at h; cases h
  | ok as =>
    rw [ha] at h
    simp only at h
    have hn := copyAliases_names ha
    cases hg : get l w.name as with
    | none =>
      rw [hg] at h
      have hnone := (get_none_iff _ _ _).1 hg
      rw [hn] at hnone
      have hno : ∀ t, ¬ FirstStored l (namesOf w) t := by
        rintro t ⟨pre, n, post, e, h1, _⟩
        rw [hnone n (by rw [e]; simp)] at h1
        cases h1
      simp only at h
      split at h
      · rename_i ho
        cases h
        refine ⟨?_, by simp [ho]⟩
        intro y
        simp only [Option.toList_none, List.not_mem_nil, false_iff]
        rintro ⟨t, ht, _⟩
        exact hno t ht
      · cases h
    | some t =>
      rw [hg] at h
      cases h
      have hf := (get_some_iff _ _ _ _).1 hg
      rw [hn] at hf
      refine ⟨?_, fun _ => ⟨t, hf⟩⟩
      intro y
      simp only [Option.toList_some, List.mem_singleton]
      constructor
      · rintro rfl
        exact ⟨t, hf, by rw [cast_noise]⟩
      · rintro ⟨t', ht', rfl⟩
        rw [← hn, ← get_some_iff, hg] at ht'
        cases ht'
        rw [cast_noise]

theorem copyOut_base {ops : Ops V K} {w : WeightInfo} {l : Loader V} {down : Bool} {out : Str} {x : List (Str × V)}
    (h : asList (copyOut ops w (some l) (none : Option (Expert M K)) down out) = .ok x) :
    (∀ y, y ∈ x ↔ ∃ t, FirstStored l (namesOf w) t ∧ y = (out, ops.cast t)) ∧
      (w.optional = false → ∃ t, FirstStored l (namesOf w) t) := by
  unfold asList copyOut at h
  cases ha : copyAliases w with
  | error e => rw [ha] at h; cases h
  | ok as =>
    rw [ha] at h
    simp only at h
    have hn := copyAliases_names ha
    cases hg : get l w.name as with
    | none =>
      rw [hg] at h
      have hnone := (get_none_iff _ _ _).1 hg
      rw [hn] at hnone
      have hno : ∀ t, ¬ FirstStored l (namesOf w) t := by
        rintro t ⟨pre, n, post, e, h1, _⟩
        rw [hnone n (by rw [e]; simp)] at h1
        cases h1
      simp only at h
      split at h
      · rename_i ho
        cases h
        refine ⟨?_, by simp [ho]⟩
        intro y
        simp only [Option.toList_none, List.not_mem_nil, false_iff]
        rintro ⟨t, ht, _⟩
        exact hno t ht
      · cases h
    | some t =>
      rw [hg] at h
      cases h
      have hf := (get_some_iff _ _ _ _).1 hg
      rw [hn] at hf
      refine ⟨?_, fun _ => ⟨t, hf⟩⟩
      intro y
      simp only [Option.toList_some, List.mem_singleton]
      constructor
      · rintro rfl
        exact ⟨t, hf, rfl⟩
      · rintro ⟨t', ht', rfl⟩
        rw [← hn, ← get_some_iff, hg] at ht'
        cases ht'
        rfl

theorem loaderFor_expert (disk : M → Loader V) (c : Config M K) {e : Expert M K} (h : e ∈ c.experts) :
    loaderFor disk c e.source = some (disk e.source) := by
  unfold loaderFor
  rw [if_pos (Or.inr (List.mem_map_of_mem h))]

theorem loaderFor_base (disk : M → Loader V) (c : Config M K) : loaderFor disk c c.base = some (disk c.base) := by
  unfold loaderFor
  rw [if_pos (Or.inl rfl)]

theorem loaderFor_some {disk : M → Loader V} {c : Config M K} {m : M} {l : Loader V} (h : loaderFor disk c m = some l) : l = disk m := by
  unfold loaderFor at h
  split at h
  · cases h; rfl
  · cases h

theorem copyExperts_ok {ops : Ops V K} {disk : M → Loader V} {c : Config M K} {w : WeightInfo} {xs : List (Str × V)}
    (h : copyExperts ops disk c w = .ok xs) :
    (∀ y, y ∈ xs ↔ ∃ i e, c.experts[i]? = some e ∧ ∃ t, FirstStored (disk e.source) (namesOf w) t ∧
      y = (expertName w.name i, prepared ops e (expertName w.name i) (hasDown w.name) t)) ∧
    (w.optional = false → ∀ e ∈ c.experts, ∃ t, FirstStored (disk e.source) (namesOf w) t) := by
  unfold copyExperts at h
  obtain ⟨rfl, h2⟩ := each_ok h
  have key : ∀ i e, c.experts[i]? = some e → asList (copyOut ops w (some (disk e.source)) (some e) (hasDown w.name) (expertName w.name i)) =
      .ok (val (asList (copyOut ops w (loaderFor disk c e.source) (some e) (hasDown w.name) (expertName w.name i)))) := by
    intro i e he
    have := h2 (e, i) (List.mem_zipIdx_iff_getElem?.2 he)
    simp only at this
    rw [loaderFor_expert disk c (List.mem_of_getElem? he)] at this ⊢
    exact this
  refine ⟨?_, ?_⟩
  · intro y
    rw [List.mem_flatMap]
    constructor
    · rintro ⟨⟨e, i⟩, hp, hy⟩
      have he := List.mem_zipIdx_iff_getElem?.1 hp
      obtain ⟨h3, _⟩ := copyOut_expert (key i e he)
      exact ⟨i, e, he, (h3 y).1 hy⟩
    · rintro ⟨i, e, he, hy⟩
      refine ⟨(e, i), List.mem_zipIdx_iff_getElem?.2 he, ?_⟩
      exact ((copyOut_expert (key i e he)).1 y).2 hy
  · intro ho e he
    obtain ⟨i, hi⟩ := List.mem_iff_getElem?.1 he
    exact (copyOut_expert (key i e hi)).2 ho

theorem saveRouters_mem (ops : Ops V K) (what : Str) (routers : List V) (x : Str × V) :
    x ∈ saveRouters ops what routers ↔ RouterPart ops what routers x := by
  unfold saveRouters RouterPart layerName
  rw [List.mem_map]
  constructor
  · rintro ⟨⟨r, i⟩, hp, rfl⟩
    exact ⟨i, r, List.mem_zipIdx_iff_getElem?.1 hp, rfl⟩
  · rintro ⟨i, r, h, rfl⟩
    exact ⟨(r, i), List.mem_zipIdx_iff_getElem?.2 h, rfl⟩

/-! ## DeepSeek -/

/-- A weight of the feed-forward part, with the shared expert's name `word`. -/
theorem mlp_part {ops : Ops V K} {disk : M → Loader V} {c : Config M K} {w : WeightInfo} {xs zs : List (Str × V)} {s : Option (Expert M K)} {word : Str}
    (hs : s = c.sharedList.head?)
    (hx : copyExperts ops disk c w = .ok xs)
    (hz0 : s = none → zs = [])
    (hz : ∀ e, s = some e → asList (copyOut ops w (loaderFor disk c e.source) (some e) (hasDown w.name) (sharedName word w.name)) = .ok zs)
    (hsingle : Single w.name) (hm : hasMlp w.name = true) :
    (∀ y, y ∈ xs ++ zs ↔ ExpertPart ops disk c [w] word y) ∧
    (w.optional = false → (∀ e ∈ c.experts, ∃ t, FirstStored (disk e.source) (namesOf w) t) ∧
      ∀ e rest, c.shared = some (e :: rest) → ∃ t, FirstStored (disk e.source) (namesOf w) t) := by
  obtain ⟨hx1, hx2⟩ := copyExperts_ok hx
  obtain ⟨pre, post, hname⟩ := (hasMlp_iff _).1 hm
  have hname' : w.name = pre ++ cs!".mlp." ++ post := hname.symm
  have hdown := hasDown_eq w.name
  have uniq : ∀ pre' post', w.name = pre' ++ cs!".mlp." ++ post' →
      (∀ i, expertName w.name i = pre' ++ cs!".mlp.experts." ++ Nat.toDigits 10 i ++ cs!"." ++ post') ∧
      sharedName word w.name = pre' ++ cs!".mlp." ++ word ++ cs!"." ++ post' := by
    intro pre' post' h
    rw [h] at hsingle ⊢
    exact ⟨expertName_eq hsingle, sharedName_eq hsingle word⟩
  have hsh : ∀ e rest, c.shared = some (e :: rest) → s = some e := by
    intro e rest h
    rw [hs]
    simp [Config.sharedList, h]
  have hsh' : ∀ e, s = some e → ∃ rest, c.shared = some (e :: rest) := by
    intro e h
    rw [hs] at h
    unfold Config.sharedList at h
    cases hc : c.shared with
    | none => rw [hc] at h; cases h
    | some l =>
      rw [hc] at h
      cases l with
      | nil => cases h
      | cons a l =>
        simp only [Option.getD_some, List.head?_cons, Option.some.injEq] at h
        exact ⟨l, by rw [h]⟩
  have hzs : ∀ e, s = some e → (∀ y, y ∈ zs ↔ ∃ t, FirstStored (disk e.source) (namesOf w) t ∧
      y = (sharedName word w.name, prepared ops e (sharedName word w.name) (hasDown w.name) t)) ∧
      (w.optional = false → ∃ t, FirstStored (disk e.source) (namesOf w) t) := by
    intro e h
    have hz := hz e h
    cases hl : loaderFor disk c e.source with
    | none =>
      rw [hl] at hz
      unfold asList copyOut at hz
      cases ha : copyAliases w with
      | error e => rw [ha] at hz; cases hz
      | ok as => rw [ha] at hz; cases hz
    | some l =>
      rw [hl] at hz
      have := copyOut_expert hz
      rw [loaderFor_some hl] at this
      exact this
  refine ⟨?_, ?_⟩
  · intro y
    rw [List.mem_append]
    constructor
    · rintro (h | h)
      · obtain ⟨i, e, he, t, ht, rfl⟩ := (hx1 y).1 h
        rw [(uniq pre post hname').1 i, hdown]
        exact .expert w pre post i e t (by simp) hname' he ht
      · cases hse : s with
        | none => rw [hz0 hse] at h; simp at h
        | some e =>
          obtain ⟨t, ht, rfl⟩ := ((hzs e hse).1 y).1 h
          obtain ⟨rest, hr⟩ := hsh' e hse
          rw [(uniq pre post hname').2, hdown]
          exact .shared w pre post e rest t (by simp) hname' hr ht
    · intro h
      cases h with
      | expert w' pre' post' i e t hw hn he ht =>
        obtain rfl := List.mem_singleton.1 hw
        refine Or.inl ((hx1 _).2 ⟨i, e, he, t, ht, ?_⟩)
        rw [(uniq pre' post' hn).1 i, hdown]
      | shared w' pre' post' e rest t hw hn he ht =>
        obtain rfl := List.mem_singleton.1 hw
        refine Or.inr (((hzs e (hsh e rest he)).1 _).2 ⟨t, ht, ?_⟩)
        rw [(uniq pre' post' hn).2, hdown]
  · intro ho
    refine ⟨hx2 ho, ?_⟩
    intro e rest he
    exact (hzs e (hsh e rest he)).2 ho

theorem ExpertPart.mono {ops : Ops V K} {disk : M → Loader V} {c : Config M K} {ws ws' : List WeightInfo} {word : Str} (hsub : ∀ w ∈ ws, w ∈ ws')
    {y : Str × V} (h : ExpertPart ops disk c ws word y) : ExpertPart ops disk c ws' word y := by
  cases h with
  | expert w pre post i e t hw hn he ht => exact .expert w pre post i e t (hsub w hw) hn he ht
  | shared w pre post e rest t hw hn he ht => exact .shared w pre post e rest t (hsub w hw) hn he ht

theorem ExpertPart.one {ops : Ops V K} {disk : M → Loader V} {c : Config M K} {ws : List WeightInfo} {word : Str}
    {y : Str × V} (h : ExpertPart ops disk c ws word y) : ∃ w ∈ ws, hasMlp w.name = true ∧ ExpertPart ops disk c [w] word y := by
  cases h with
  | expert w pre post i e t hw hn he ht =>
    exact ⟨w, hw, (hasMlp_iff _).2 ⟨pre, post, by rw [hn]⟩, .expert w pre post i e t (by simp) hn he ht⟩
  | shared w pre post e rest t hw hn he ht =>
    exact ⟨w, hw, (hasMlp_iff _).2 ⟨pre, post, by rw [hn]⟩, .shared w pre post e rest t (by simp) hn he ht⟩

theorem deepseekWeight_mlp {ops : Ops V K} {disk : M → Loader V} {c : Config M K} {w : WeightInfo} {x : List (Str × V)}
    (h : deepseekWeight ops disk c w = .ok x) (hm : hasMlp w.name = true) (hsingle : Single w.name) :
    (∀ y, y ∈ x ↔ ExpertPart ops disk c [w] cs!"shared_experts" y) ∧
    (w.optional = false → (∀ e ∈ c.experts, ∃ t, FirstStored (disk e.source) (namesOf w) t) ∧
      ∀ e rest, c.shared = some (e :: rest) → ∃ t, FirstStored (disk e.source) (namesOf w) t) := by
  unfold deepseekWeight at h
  rw [if_pos hm] at h
  cases hx : copyExperts ops disk c w with
  | error e => rw [hx] at h; cases h
  | ok xs =>
    rw [hx] at h
    simp only at h
    cases hs : c.sharedList with
    | nil =>
      rw [hs] at h
      simp only [Except.ok.injEq] at h
      subst h
      have := mlp_part (s := none) (zs := []) (word := cs!"shared_experts") (by rw [hs]; rfl) hx (fun _ => rfl) (by simp) hsingle hm
      simpa using this
    | cons s rest =>
      rw [hs] at h
      simp only at h
      cases hz : asList (copyOut ops w (loaderFor disk c s.source) (some s) (hasDown w.name) (sharedName cs!"shared_experts" w.name)) with
      | error e => rw [hz] at h; cases h
      | ok zs =>
        rw [hz] at h
        cases h
        exact mlp_part (s := some s) (zs := zs) (word := cs!"shared_experts") (by rw [hs]; rfl) hx (by simp) (by intro e h; cases h; exact hz) hsingle hm

theorem deepseekWeight_base {ops : Ops V K} {disk : M → Loader V} {c : Config M K} {w : WeightInfo} {x : List (Str × V)}
    (h : deepseekWeight ops disk c w = .ok x) (hm : hasMlp w.name = false) :
    (∀ y, y ∈ x ↔ ∃ t, FirstStored (disk c.base) (namesOf w) t ∧ y = (w.name, ops.cast t)) ∧
    (w.optional = false → ∃ t, FirstStored (disk c.base) (namesOf w) t) := by
  unfold deepseekWeight at h
  rw [if_neg (by simp [hm]), loaderFor_base] at h
  exact copyOut_base h

/-- C57 for the DeepSeek layout: a finished run saves exactly: the (scaled) weights of the i-th expert in slot i of each feed-forward weight, the
shared expert's, the base model's for all other weights, and one router per layer; and no required weight was missing. -/
theorem C57_deepseek {ops : Ops V K} {disk : M → Loader V} {c : Config M K} {weights : List WeightInfo} {routers : List V} {saved : List (Str × V)}
    (hsingle : ∀ w ∈ weights, Single w.name) (h : writeDeepseek ops disk c weights routers = .ok saved) :
    (∀ x, x ∈ saved ↔ ExpertPart ops disk c weights cs!"shared_experts" x ∨ BasePart ops disk c weights x ∨ RouterPart ops cs!"gate.weight" routers x) ∧
    (∀ w ∈ weights, w.optional = false → cs!".mlp." <:+: w.name →
      (∀ e ∈ c.experts, ∃ t, FirstStored (disk e.source) (namesOf w) t) ∧
      ∀ e rest, c.shared = some (e :: rest) → ∃ t, FirstStored (disk e.source) (namesOf w) t) ∧
    (∀ w ∈ weights, w.optional = false → ¬ cs!".mlp." <:+: w.name → ∃ t, FirstStored (disk c.base) (namesOf w) t) := by
  unfold writeDeepseek at h
  cases he : each (deepseekWeight ops disk c) weights with
  | error e => rw [he] at h; cases h
  | ok ys =>
    rw [he] at h
    cases h
    obtain ⟨rfl, hall⟩ := each_ok he
    refine ⟨?_, ?_, ?_⟩
    · intro x
      rw [List.mem_append, saveRouters_mem, ← or_assoc]
      refine or_congr ?_ Iff.rfl
      rw [List.mem_flatMap]
      constructor
      · rintro ⟨w, hw, hx⟩
        cases hm : hasMlp w.name with
        | true =>
          exact Or.inl (ExpertPart.mono (by simpa using hw) (((deepseekWeight_mlp (hall w hw) hm (hsingle w hw)).1 x).1 hx))
        | false =>
          obtain ⟨t, ht, rfl⟩ := ((deepseekWeight_base (hall w hw) hm).1 x).1 hx
          exact Or.inr ⟨w, hw, by rw [← hasMlp_iff, hm]; simp, rfl, t, ht, rfl⟩
      · rintro (hx | ⟨w, hw, hm, h1, t, ht, h2⟩)
        · obtain ⟨w, hw, hm, hx⟩ := hx.one
          exact ⟨w, hw, ((deepseekWeight_mlp (hall w hw) hm (hsingle w hw)).1 x).2 hx⟩
        · rw [← hasMlp_iff, Bool.not_eq_true] at hm
          exact ⟨w, hw, ((deepseekWeight_base (hall w hw) hm).1 x).2 ⟨t, ht, Prod.ext h1 h2⟩⟩
    · intro w hw ho hm
      exact (deepseekWeight_mlp (hall w hw) ((hasMlp_iff _).2 hm) (hsingle w hw)).2 ho
    · intro w hw ho hm
      rw [← hasMlp_iff, Bool.not_eq_true] at hm
      exact (deepseekWeight_base (hall w hw) hm).2 ho

theorem copyOut_total {ops : Ops V K} {w : WeightInfo} {l : Loader V} {e : Option (Expert M K)} {down : Bool} {out : Str}
    (hw : w.optional = true ∨ w.aliases.getD [] = [] ∨ w.tiedNames.getD [] ≠ [])
    (h : w.optional = false → ∃ t, FirstStored l (namesOf w) t) : ∃ x, asList (copyOut ops w (some l) e down out) = .ok x := by
  obtain ⟨as, ha⟩ : ∃ as, copyAliases w = .ok as := by
    unfold copyAliases
    cases ha : w.aliases.getD [] with
    | nil =>
      cases ho : w.optional with
      | true => exact ⟨_, rfl⟩
      | false => exact ⟨_, rfl⟩
    | cons a as =>
      cases ho : w.optional with
      | true => exact ⟨_, rfl⟩
      | false =>
        cases ht : w.tiedNames.getD [] with
        | nil => rw [ho, ha, ht] at hw; simp at hw
        | cons t ts => exact ⟨_, rfl⟩
  unfold asList copyOut
  rw [ha]
  simp only
  cases hg : get l w.name as with
  | none =>
    simp only
    cases ho : w.optional with
    | true => exact ⟨_, rfl⟩
    | false =>
      obtain ⟨t, ht⟩ := h ho
      rw [← copyAliases_names ha, ← get_some_iff, hg] at ht
      cases ht
  | some t =>
    cases e with
    | none => exact ⟨_, rfl⟩
    | some e => exact ⟨_, rfl⟩

theorem copyExperts_total {ops : Ops V K} {disk : M → Loader V} {c : Config M K} {w : WeightInfo}
    (hw : w.optional = true ∨ w.aliases.getD [] = [] ∨ w.tiedNames.getD [] ≠ [])
    (h : w.optional = false → ∀ e ∈ c.experts, ∃ t, FirstStored (disk e.source) (namesOf w) t) : ∃ x, copyExperts ops disk c w = .ok x := by
  unfold copyExperts
  refine each_total ?_
  rintro ⟨e, i⟩ hp
  have he := List.mem_of_getElem? (List.mem_zipIdx_iff_getElem?.1 hp)
  simp only
  rw [loaderFor_expert disk c he]
  exact copyOut_total hw (fun ho => h ho e he)

/-- Tables and alternative names fit together: a required weight with alternative names also lists tied ones (adding nothing to the tuple of
alternative names is a `TypeError` in python). -/
def Addable (w : WeightInfo) : Prop := w.optional = true ∨ w.aliases.getD [] = [] ∨ w.tiedNames.getD [] ≠ []

/-- The model of the shared expert is the base model or one of the experts. -/
def SharedLoaded (c : Config M K) : Prop := ∀ e rest, c.shared = some (e :: rest) → e.source = c.base ∨ e.source ∈ c.experts.map (·.source)

/-- C57, the other direction: with all required weights in place and a shared expert that is loaded the run finishes. -/
theorem C57_deepseek_finishes (ops : Ops V K) {disk : M → Loader V} {c : Config M K} {weights : List WeightInfo} (routers : List V)
    (hadd : ∀ w ∈ weights, Addable w) (hshared : SharedLoaded c)
    (hmlp : ∀ w ∈ weights, w.optional = false → cs!".mlp." <:+: w.name →
      (∀ e ∈ c.experts, ∃ t, FirstStored (disk e.source) (namesOf w) t) ∧
      ∀ e rest, c.shared = some (e :: rest) → ∃ t, FirstStored (disk e.source) (namesOf w) t)
    (hbase : ∀ w ∈ weights, w.optional = false → ¬ cs!".mlp." <:+: w.name → ∃ t, FirstStored (disk c.base) (namesOf w) t) :
    ∃ saved, writeDeepseek ops disk c weights routers = .ok saved := by
  obtain ⟨ys, hys⟩ : ∃ ys, each (deepseekWeight ops disk c) weights = .ok ys := by
    refine each_total ?_
    intro w hw
    unfold deepseekWeight
    cases hm : hasMlp w.name with
    | false =>
      rw [if_neg (by simp), loaderFor_base]
      refine copyOut_total (hadd w hw) (fun ho => hbase w hw ho ?_)
      rw [← hasMlp_iff, hm]
      simp
    | true =>
      rw [if_pos rfl]
      have hi := (hasMlp_iff _).1 hm
      obtain ⟨xs, hxs⟩ := copyExperts_total (ops := ops) (hadd w hw) (fun ho => (hmlp w hw ho hi).1)
      rw [hxs]
      simp only
      cases hc : c.shared with
      | none => simp [Config.sharedList, hc]
      | some l =>
        cases l with
        | nil => simp [Config.sharedList, hc]
        | cons e rest =>
          simp only [Config.sharedList, hc, Option.getD_some]
          have hl : loaderFor disk c e.source = some (disk e.source) := by
            unfold loaderFor
            rw [if_pos (hshared e rest hc)]
          rw [hl]
          obtain ⟨z, hz⟩ := copyOut_total (ops := ops) (e := some e) (down := hasDown w.name) (out := sharedName cs!"shared_experts" w.name)
            (hadd w hw) (fun ho => (hmlp w hw ho hi).2 e rest hc)
          rw [hz]
          exact ⟨_, rfl⟩
  unfold writeDeepseek
  rw [hys]
  exact ⟨_, rfl⟩

/-- C57 refuted: no run with a shared expert that is neither the base model nor one of the experts ever finishes. -/
theorem C57_shared_not_loaded (ops : Ops V K) (disk : M → Loader V) (c : Config M K) (weights : List WeightInfo) (routers : List V)
    {s : Expert M K} {rest : List (Expert M K)} (hs : c.shared = some (s :: rest)) (hb : s.source ≠ c.base)
    (he : ∀ e ∈ c.experts, s.source ≠ e.source) {w : WeightInfo} (hw : w ∈ weights) (hm : cs!".mlp." <:+: w.name) (saved : List (Str × V)) :
    writeDeepseek ops disk c weights routers ≠ .ok saved ∧ ∀ sharedRouters, writeQwen ops disk c weights routers sharedRouters ≠ .ok saved := by
  have hl : loaderFor disk c s.source = none := by
    unfold loaderFor
    rw [if_neg]
    rintro (h | h)
    · exact hb h
    · obtain ⟨e, hmem, h⟩ := List.mem_map.1 h
      exact he e hmem h.symm
  have hm' := (hasMlp_iff _).2 hm
  have hcopy : ∀ out, ∃ err, asList (copyOut ops w (loaderFor disk c s.source) (some s) (hasDown w.name) out) = .error err := by
    intro out
    rw [hl]
    unfold copyOut
    cases copyAliases w with
    | error e => exact ⟨e, rfl⟩
    | ok as => exact ⟨.attribute, rfl⟩
  constructor
  · obtain ⟨err, herr⟩ : ∃ err, deepseekWeight ops disk c w = .error err := by
      unfold deepseekWeight
      rw [if_pos hm']
      cases copyExperts ops disk c w with
      | error e => exact ⟨e, rfl⟩
      | ok xs =>
        simp only [Config.sharedList, hs, Option.getD_some]
        obtain ⟨err, herr⟩ := hcopy (sharedName cs!"shared_experts" w.name)
        rw [herr]
        exact ⟨err, rfl⟩
    unfold writeDeepseek
    intro h
    cases hx : each (deepseekWeight ops disk c) weights with
    | error e => rw [hx] at h; cases h
    | ok ys => exact each_error hw herr ys hx
  · intro sharedRouters h
    obtain ⟨err, herr⟩ : ∃ err, qwenWeight ops disk c s w = .error err := by
      unfold qwenWeight
      rw [if_pos hm']
      cases copyExperts ops disk c w with
      | error e => exact ⟨e, rfl⟩
      | ok xs =>
        simp only
        obtain ⟨err, herr⟩ := hcopy (sharedName cs!"shared_expert" w.name)
        rw [herr]
        exact ⟨err, rfl⟩
    unfold writeQwen at h
    rw [hs] at h
    simp only at h
    cases hx : each (qwenWeight ops disk c s) weights with
    | error e => rw [hx] at h; cases h
    | ok ys => exact each_error hw herr ys hx

/-! ## Qwen -/

/-- Weights outside the feed-forward part in the Qwen layout: the base model's (names of tied weights are not tried), or zeros for missing biases. -/
def QwenBasePart (ops : Ops V K) (disk : M → Loader V) (c : Config M K) (weights : List WeightInfo) (x : Str × V) : Prop :=
  ∃ w ∈ weights, ¬ cs!".mlp." <:+: w.name ∧ x.1 = w.name ∧
    ((∃ t, FirstStored (disk c.base) (w.name :: w.aliases.getD []) t ∧ x.2 = ops.cast t) ∨
     ((∀ n ∈ w.name :: w.aliases.getD [], disk c.base n = none) ∧ cs!"_proj.bias" <:+ w.name ∧ x.2 = ops.cast (ops.zeros w.name)))

theorem qwenBase_ok {ops : Ops V K} {l : Loader V} {w : WeightInfo} {x : List (Str × V)} (h : qwenBase ops l w = .ok x) :
    (∀ y, y ∈ x ↔ y.1 = w.name ∧ ((∃ t, FirstStored l (w.name :: w.aliases.getD []) t ∧ y.2 = ops.cast t) ∨
     ((∀ n ∈ w.name :: w.aliases.getD [], l n = none) ∧ cs!"_proj.bias" <:+ w.name ∧ y.2 = ops.cast (ops.zeros w.name)))) ∧
    (w.optional = false → ¬ cs!"_proj.bias" <:+ w.name → ∃ t, FirstStored l (w.name :: w.aliases.getD []) t) := by
  unfold qwenBase at h
  cases hg : get l w.name (w.aliases.getD []) with
  | some t =>
    rw [hg] at h
    cases h
    have hf := (get_some_iff _ _ _ _).1 hg
    refine ⟨?_, fun _ _ => ⟨t, hf⟩⟩
    intro y
    rw [List.mem_singleton]
    constructor
    · rintro rfl
      exact ⟨rfl, Or.inl ⟨t, hf, rfl⟩⟩
    · rintro ⟨h1, ⟨t', ht', h2⟩ | ⟨hn, _, _⟩⟩
      · rw [← get_some_iff, hg] at ht'
        cases ht'
        exact Prod.ext h1 h2
      · rw [← get_none_iff, hg] at hn
        cases hn
  | none =>
    rw [hg] at h
    have hn := (get_none_iff _ _ _).1 hg
    have hno : ∀ t, ¬ FirstStored l (w.name :: w.aliases.getD []) t := by
      intro t ht
      rw [← get_some_iff, hg] at ht
      cases ht
    simp only at h
    split at h
    · rename_i hb
      have hb' : cs!"_proj.bias" <:+ w.name := List.isSuffixOf_iff_suffix.1 hb
      cases h
      refine ⟨?_, fun _ h => absurd hb' h⟩
      intro y
      rw [List.mem_singleton]
      constructor
      · rintro rfl
        exact ⟨rfl, Or.inr ⟨hn, hb', rfl⟩⟩
      · rintro ⟨h1, ⟨t', ht', h2⟩ | ⟨_, _, h2⟩⟩
        · exact absurd ht' (hno t')
        · exact Prod.ext h1 h2
    · rename_i hb
      have hb' : ¬ cs!"_proj.bias" <:+ w.name := fun h => hb (List.isSuffixOf_iff_suffix.2 h)
      split at h
      · rename_i ho
        cases h
        refine ⟨?_, fun h => by simp [ho] at h⟩
        intro y
        simp only [List.not_mem_nil, false_iff, not_and, not_or]
        exact fun _ => ⟨fun ⟨t, ht, _⟩ => hno t ht, fun _ h _ => hb' h⟩
      · cases h

theorem qwenRouters_ok {ops : Ops V K} {k : Nat} {rs gs : List V} {ys : List (Str × V)} (h : qwenRouters ops k rs gs = .ok ys) :
    rs.length ≤ gs.length ∧ ∀ x, x ∈ ys ↔ ∃ layer r g, rs[layer]? = some r ∧ gs[layer]? = some g ∧
      (x = (layerName (k + layer) cs!"gate.weight", ops.cast r) ∨ x = (layerName (k + layer) cs!"shared_expert_gate.weight", ops.cast g)) := by
  induction rs generalizing k gs ys with
  | nil =>
    simp only [qwenRouters, Except.ok.injEq] at h
    subst h
    simp
  | cons r rs ih =>
    cases gs with
    | nil => simp [qwenRouters] at h
    | cons g gs =>
      simp only [qwenRouters] at h
      cases hr : qwenRouters ops (k + 1) rs gs with
      | error e => rw [hr] at h; cases h
      | ok zs =>
        rw [hr] at h
        cases h
        obtain ⟨h1, h2⟩ := ih hr
        refine ⟨by simpa using h1, ?_⟩
        intro x
        rw [List.mem_append, h2]
        constructor
        · rintro (hx | ⟨layer, r', g', hr', hg', hx⟩)
          · refine ⟨0, r, g, rfl, rfl, ?_⟩
            simpa using hx
          · refine ⟨layer + 1, r', g', by simpa using hr', by simpa using hg', ?_⟩
            rw [show k + (layer + 1) = k + 1 + layer from by omega]
            exact hx
        · rintro ⟨layer, r', g', hr', hg', hx⟩
          cases layer with
          | zero =>
            simp only [List.getElem?_cons_zero, Option.some.injEq] at hr' hg'
            subst hr' hg'
            refine Or.inl ?_
            simpa using hx
          | succ layer =>
            refine Or.inr ⟨layer, r', g', by simpa using hr', by simpa using hg', ?_⟩
            rw [show k + (layer + 1) = k + 1 + layer from by omega] at hx
            exact hx

theorem qwenWeight_mlp {ops : Ops V K} {disk : M → Loader V} {c : Config M K} {s : Expert M K} {rest : List (Expert M K)}
    (hs : c.shared = some (s :: rest)) {w : WeightInfo} {x : List (Str × V)}
    (h : qwenWeight ops disk c s w = .ok x) (hm : hasMlp w.name = true) (hsingle : Single w.name) :
    (∀ y, y ∈ x ↔ ExpertPart ops disk c [w] cs!"shared_expert" y) ∧
    (w.optional = false → (∀ e ∈ c.experts, ∃ t, FirstStored (disk e.source) (namesOf w) t) ∧
      ∀ e rest, c.shared = some (e :: rest) → ∃ t, FirstStored (disk e.source) (namesOf w) t) := by
  unfold qwenWeight at h
  rw [if_pos hm] at h
  cases hx : copyExperts ops disk c w with
  | error e => rw [hx] at h; cases h
  | ok xs =>
    rw [hx] at h
    simp only at h
    cases hz : asList (copyOut ops w (loaderFor disk c s.source) (some s) (hasDown w.name) (sharedName cs!"shared_expert" w.name)) with
    | error e => rw [hz] at h; cases h
    | ok zs =>
      rw [hz] at h
      cases h
      exact mlp_part (s := some s) (zs := zs) (word := cs!"shared_expert") (by simp [Config.sharedList, hs]) hx (by simp)
        (by intro e h; cases h; exact hz) hsingle hm

/-- C57 for the Qwen layout. -/
theorem C57_qwen {ops : Ops V K} {disk : M → Loader V} {c : Config M K} {weights : List WeightInfo} {routers sharedRouters : List V}
    {saved : List (Str × V)} (hsingle : ∀ w ∈ weights, Single w.name) (h : writeQwen ops disk c weights routers sharedRouters = .ok saved) :
    (∃ s rest, c.shared = some (s :: rest)) ∧ routers.length ≤ sharedRouters.length ∧
    (∀ x, x ∈ saved ↔ ExpertPart ops disk c weights cs!"shared_expert" x ∨ QwenBasePart ops disk c weights x ∨
      RouterPart ops cs!"gate.weight" routers x ∨ RouterPart ops cs!"shared_expert_gate.weight" (sharedRouters.take routers.length) x) ∧
    (∀ w ∈ weights, w.optional = false → cs!".mlp." <:+: w.name →
      (∀ e ∈ c.experts, ∃ t, FirstStored (disk e.source) (namesOf w) t) ∧
      ∀ e rest, c.shared = some (e :: rest) → ∃ t, FirstStored (disk e.source) (namesOf w) t) ∧
    (∀ w ∈ weights, w.optional = false → ¬ cs!".mlp." <:+: w.name → ¬ cs!"_proj.bias" <:+ w.name →
      ∃ t, FirstStored (disk c.base) (w.name :: w.aliases.getD []) t) := by
  unfold writeQwen at h
  cases hs : c.shared with
  | none => rw [hs] at h; cases h
  | some l =>
    cases l with
    | nil => rw [hs] at h; cases h
    | cons s rest =>
      rw [hs] at h
      simp only at h
      cases he : each (qwenWeight ops disk c s) weights with
      | error e => rw [he] at h; cases h
      | ok ys =>
        rw [he] at h
        simp only at h
        cases hr : qwenRouters ops 0 routers sharedRouters with
        | error e => rw [hr] at h; cases h
        | ok zs =>
          rw [hr] at h
          cases h
          obtain ⟨rfl, hall⟩ := each_ok he
          obtain ⟨hlen, hrm⟩ := qwenRouters_ok hr
          have hbaseEq : ∀ w ∈ weights, hasMlp w.name = false → qwenBase ops (disk c.base) w = .ok (val (qwenWeight ops disk c s w)) := by
            intro w hw hm
            have := hall w hw
            rw [← this]
            unfold qwenWeight
            rw [if_neg (by simp [hm])]
          refine ⟨⟨s, rest, rfl⟩, hlen, ?_, ?_, ?_⟩
          · intro x
            rw [List.mem_append, hrm, ← or_assoc]
            refine or_congr ?_ ?_
            · rw [List.mem_flatMap]
              constructor
              · rintro ⟨w, hw, hx⟩
                cases hm : hasMlp w.name with
                | true =>
                  exact Or.inl (ExpertPart.mono (by simpa using hw) (((qwenWeight_mlp hs (hall w hw) hm (hsingle w hw)).1 x).1 hx))
                | false =>
                  obtain ⟨h1, h2⟩ := ((qwenBase_ok (hbaseEq w hw hm)).1 x).1 hx
                  exact Or.inr ⟨w, hw, by rw [← hasMlp_iff, hm]; simp, h1, h2⟩
              · rintro (hx | ⟨w, hw, hm, h1, h2⟩)
                · obtain ⟨w, hw, hm, hx⟩ := hx.one
                  exact ⟨w, hw, ((qwenWeight_mlp hs (hall w hw) hm (hsingle w hw)).1 x).2 hx⟩
                · rw [← hasMlp_iff, Bool.not_eq_true] at hm
                  exact ⟨w, hw, ((qwenBase_ok (hbaseEq w hw hm)).1 x).2 ⟨h1, h2⟩⟩
            · unfold RouterPart
              constructor
              · rintro ⟨layer, r, g, h1, h2, h3 | h3⟩
                · exact Or.inl ⟨layer, r, h1, by simpa [layerName] using h3⟩
                · refine Or.inr ⟨layer, g, ?_, by simpa [layerName] using h3⟩
                  rw [List.getElem?_take_of_lt (List.getElem?_eq_some_iff.1 h1).1]
                  exact h2
              · rintro (⟨layer, r, h1, h3⟩ | ⟨layer, g, h2, h3⟩)
                · have hlt := (List.getElem?_eq_some_iff.1 h1).1
                  exact ⟨layer, r, sharedRouters[layer]'(by omega), h1, List.getElem?_eq_getElem _, Or.inl (by simpa [layerName] using h3)⟩
                · have hlt : layer < routers.length := by
                    have := (List.getElem?_eq_some_iff.1 h2).1
                    rw [List.length_take] at this
                    omega
                  rw [List.getElem?_take_of_lt hlt] at h2
                  exact ⟨layer, routers[layer], g, List.getElem?_eq_getElem _, h2, Or.inr (by simpa [layerName] using h3)⟩
          · intro w hw ho hm
            have := (qwenWeight_mlp hs (hall w hw) ((hasMlp_iff _).2 hm) (hsingle w hw)).2 ho
            rw [hs] at this
            exact this
          · intro w hw ho hm hb
            rw [← hasMlp_iff, Bool.not_eq_true] at hm
            exact (qwenBase_ok (hbaseEq w hw hm)).2 ho hb

end Verif.Moe
