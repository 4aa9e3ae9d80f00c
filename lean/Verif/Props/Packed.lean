import Verif.Model.Packed
import Verif.Props.MoeShipped

/-! # C126: merging into a model of vLLM, whose parameters hold several weights -/

namespace Verif.Packed

open Verif.ModelRef (Str)
open Verif.Moe (replace replace_once any_prefix_iff)
open Verif.Arch (WeightInfo Module)

/-! ## What goes where -/

/-- How vLLM packs: which weights are in which parameter, and in which part of it. -/
inductive Packs : Str → Str → Shard → Prop
  | q : Packs cs!".q_proj." cs!".qkv_proj." .q
  | k : Packs cs!".k_proj." cs!".qkv_proj." .k
  | v : Packs cs!".v_proj." cs!".qkv_proj." .v
  | gate : Packs cs!".gate_proj." cs!".gate_up_proj." .first
  | up : Packs cs!".up_proj." cs!".gate_up_proj." .second

/-- The tensor `name` is the part `shard` of the parameter `target`: the word for it occurs in the name, once, and no other such word does. -/
def PartOf (name target : Str) (shard : Shard) : Prop :=
  ∃ old new a b, Packs old new shard ∧ name = a ++ old ++ b ∧ target = a ++ new ++ b ∧ (∀ a' b', name = a' ++ old ++ b' → a' = a) ∧
    (∀ old' new' s', Packs old' new' s' → old' <:+: name → old' = old) ∧ ¬ new <:+: name

/-- No such word occurs. -/
def Plain (name : Str) : Prop := ∀ old new s, Packs old new s → ¬ old <:+: name

theorem occurs_iff (needle name : Str) : occurs needle name = true ↔ needle <:+: name := any_prefix_iff _ _

theorem packs_iff (old new : Str) (s : Shard) : Packs old new s ↔ (old, new, s) ∈ stacked := by
  constructor
  · rintro (_ | _) <;> simp [stacked]
  · intro h
    simp only [stacked, List.mem_cons, Prod.mk.injEq, List.not_mem_nil, or_false] at h
    rcases h with ⟨rfl, rfl, rfl⟩ | ⟨rfl, rfl, rfl⟩ | ⟨rfl, rfl, rfl⟩ | ⟨rfl, rfl, rfl⟩ | ⟨rfl, rfl, rfl⟩
    · exact .q
    · exact .k
    · exact .v
    · exact .gate
    · exact .up

theorem packs_ne {old new : Str} {s : Shard} (h : Packs old new s) : old ≠ [] := by cases h <;> simp

/-- The word and the parameter are determined by each other's part. -/
theorem packs_old {old new new' : Str} {s s' : Shard} (h : Packs old new s) (h' : Packs old new' s') : new = new' ∧ s = s' := by
  cases h <;> cases h' <;> exact ⟨rfl, rfl⟩

theorem packs_shard {old old' new new' : Str} {s : Shard} (h : Packs old new s) (h' : Packs old' new' s) : old = old' ∧ new = new' := by
  cases h <;> cases h' <;> exact ⟨rfl, rfl⟩

theorem partOf_fun {name target target' : Str} {s s' : Shard} (h : PartOf name target s) (h' : PartOf name target' s') : target = target' ∧ s = s' := by
  obtain ⟨old, new, a, b, hp, hn, ht, hu, ho, _⟩ := h
  obtain ⟨old', new', a', b', hp', hn', ht', _, _, _⟩ := h'
  obtain rfl := ho old' new' s' hp' ⟨a', b', hn'.symm⟩
  obtain ⟨rfl, rfl⟩ := packs_old hp hp'
  obtain rfl := hu a' b' hn'
  rw [hn, List.append_assoc, List.append_assoc] at hn'
  have := List.append_cancel_left (List.append_cancel_left hn')
  rw [ht, ht', this]
  exact ⟨rfl, rfl⟩

theorem packs_new {old new : Str} {s : Shard} (h : Packs old new s) :
    (∃ m, new = '.' :: m ++ ['.'] ∧ '.' ∉ m) ∧ ∃ m, old = '.' :: m := by
  cases h
  · exact ⟨⟨cs!"qkv_proj", rfl, by decide⟩, _, rfl⟩
  · exact ⟨⟨cs!"qkv_proj", rfl, by decide⟩, _, rfl⟩
  · exact ⟨⟨cs!"qkv_proj", rfl, by decide⟩, _, rfl⟩
  · exact ⟨⟨cs!"gate_up_proj", rfl, by decide⟩, _, rfl⟩
  · exact ⟨⟨cs!"gate_up_proj", rfl, by decide⟩, _, rfl⟩

theorem split_shorter {new old a a' b b' : Str} (hnew : ∃ m, new = '.' :: m ++ ['.'] ∧ '.' ∉ m) (hold : ∃ m, old = '.' :: m)
    (h : a ++ new ++ b = a' ++ new ++ b') (hn' : ¬ new <:+: a' ++ old ++ b') : ¬ a.length < a'.length := by
  intro hlt
  obtain ⟨m, rfl, hm⟩ := hnew
  obtain ⟨o, rfl⟩ := hold
  rw [List.append_assoc a, List.append_assoc a', List.append_eq_append_iff] at h
  rcases h with ⟨x, hx, h⟩ | ⟨x, hx, _⟩
  · -- `a' = a ++ x`
    have hx0 : 0 < x.length := by
      have := congrArg List.length hx
      simp at this
      omega
    rcases Nat.lt_trichotomy x.length (m.length + 1) with hl | hl | hl
    · -- a dot would be inside
      obtain ⟨c, x', rfl⟩ : ∃ c x', x = c :: x' := by
        cases x with
        | nil => simp at hx0
        | cons c x' => exact ⟨c, x', rfl⟩
      simp only [List.length_cons] at hl
      simp only [List.cons_append, List.append_assoc, List.cons.injEq] at h
      have hg := congrArg (fun l => l[x'.length]?) h.2
      rw [List.getElem?_append_left (by omega), List.getElem?_append_right (le_refl _)] at hg
      simp only [Nat.sub_self, List.getElem?_cons_zero] at hg
      exact hm (List.mem_of_getElem? hg)
    · -- the dot after it is the one before
      have hpre : '.' :: m = x := by
        have hlen : ('.' :: m).length = x.length := by simp [hl]
        have h' : ('.' :: m) ++ (['.'] ++ b) = x ++ ('.' :: m ++ ['.'] ++ b') := by simpa using h
        exact (List.append_inj h' hlen).1
      apply hn'
      refine ⟨a, o ++ b', ?_⟩
      rw [hx, ← hpre]
      simp
    · have hp : '.' :: m ++ ['.'] <+: x := by
        refine List.prefix_of_prefix_length_le (l₃ := x ++ ('.' :: m ++ ['.'] ++ b')) ?_ (List.prefix_append _ _) (by simp; omega)
        rw [← h]
        exact List.prefix_append _ _
      apply hn'
      refine hp.isInfix.trans ⟨a, '.' :: o ++ b', ?_⟩
      rw [hx]
      simp
  · have := congrArg List.length hx
    simp at this
    omega

/-- Different tensors are in different parts. -/
theorem partOf_inj {name name' target : Str} {s : Shard} (h : PartOf name target s) (h' : PartOf name' target s) : name = name' := by
  obtain ⟨old, new, a, b, hp, hn, ht, _, _, hno⟩ := h
  obtain ⟨old', new', a', b', hp', hn', ht', _, _, hno'⟩ := h'
  obtain ⟨rfl, rfl⟩ := packs_shard hp hp'
  obtain ⟨p1, p2⟩ := packs_new hp
  have e : a ++ new ++ b = a' ++ new ++ b' := ht.symm.trans ht'
  have l1 := split_shorter p1 p2 e (by rw [← hn']; exact hno')
  have l2 := split_shorter p1 p2 e.symm (by rw [← hn]; exact hno)
  have hlen : a.length = a'.length := by omega
  have h1 := List.append_inj (by simpa using e : a ++ (new ++ b) = a' ++ (new ++ b')) hlen
  rw [hn, hn', h1.1, List.append_cancel_left h1.2]

theorem replace_part {name target old new a b : Str} {s : Shard} (hp : Packs old new s) (hn : name = a ++ old ++ b) (ht : target = a ++ new ++ b)
    (hu : ∀ a' b', name = a' ++ old ++ b' → a' = a) : replace old new name = target := by
  have hne := packs_ne hp
  rw [hn, ht]
  apply replace_once hne
  · rintro ⟨x, y, hxy⟩
    have h1 : name = x ++ old ++ (y ++ old.getLast hne :: b) := by
      have e : a ++ old ++ b = (a ++ old.dropLast) ++ old.getLast hne :: b := by
        conv_lhs => rw [← List.dropLast_append_getLast hne]
        simp
      rw [hn, e, ← hxy]
      simp
    have h2 := congrArg List.length (hu _ _ h1)
    have h3 := congrArg List.length hxy
    have h4 := List.length_pos_iff.2 hne
    simp at h3
    omega
  · rintro ⟨x, y, hxy⟩
    have h1 : name = (a ++ old ++ x) ++ old ++ y := by
      rw [hn, ← hxy]
      simp
    have h2 := congrArg List.length (hu _ _ h1)
    have h4 := List.length_pos_iff.2 hne
    simp only [List.length_append] at h2
    omega

/-! ## Loading -/

section
variable {T : Type}

/-- What loading a part does: it is then there, the other parts are as before, and the parameter still has its form. -/
def Proper (load : Loader T) (get : Str → Shard → T → T) (form : Str → T → Prop) : Prop :=
  ∀ target s v x y, form target x → load target s v x = some y → get target s y = v ∧ (∀ s', s' ≠ s → get target s' y = get target s' x) ∧ form target y

theorem lookup_set (params : List (Str × T)) (name n : Str) (t : T) :
    (params.map (fun e => if e.1 == name then (e.1, t) else e)).lookup n = if n = name then (params.lookup n).map (fun _ => t) else params.lookup n := by
  induction params with
  | nil => simp
  | cons e params ih =>
    obtain ⟨k, x⟩ := e
    simp only [List.map_cons]
    by_cases hk : k = name
    · subst hk
      simp only [beq_self_eq_true, if_true, List.lookup_cons, ih]
      by_cases hn : n = k
      · simp [hn]
      · have : (n == k) = false := by simpa using hn
        simp [this, hn]
    · have hk' : (k == name) = false := by simpa using hk
      simp only [hk', Bool.false_eq_true, if_false, List.lookup_cons, ih]
      by_cases hn : n = k
      · subst hn
        simp [hk]
      · have : (n == k) = false := by simpa using hn
        simp [this]

theorem names_set (params : List (Str × T)) (name : Str) (t : T) :
    (params.map (fun e => if e.1 == name then (e.1, t) else e)).map Prod.fst = params.map Prod.fst := by
  rw [List.map_map]
  refine List.map_congr_left ?_
  intro e _
  simp only [Function.comp]
  split <;> rfl

theorem lookup_names (params : List (Str × T)) (n : Str) : (∃ t, params.lookup n = some t) ↔ n ∈ params.map Prod.fst := by
  induction params with
  | nil => simp
  | cons e params ih =>
    obtain ⟨k, x⟩ := e
    rw [List.lookup_cons]
    by_cases hn : n = k
    · simp [hn]
    · have : (n == k) = false := by simpa using hn
      simp only [this, ih, List.map_cons, List.mem_cons, hn, false_or]

theorem any_names (params : List (Str × T)) (n : Str) : params.any (·.1 == n) = true ↔ n ∈ params.map Prod.fst := by
  rw [List.any_eq_true, List.mem_map]
  constructor
  · rintro ⟨e, he, h⟩
    exact ⟨e, he, by simpa using h⟩
  · rintro ⟨e, he, h⟩
    exact ⟨e, he, by simpa using h⟩

theorem loadStacked_part (load : Loader T) (name target : Str) (s : Shard) (t old new : T) (params : List (Str × T)) (h : PartOf name target s)
    (hl : params.lookup target = some old) (hnew : load target s t old = some new) :
    loadStacked load name t params stacked = some (params.map (fun e => if e.1 == target then (e.1, new) else e)) := by
  obtain ⟨o, w, a, b, hp, hn, ht, hu, ho, _⟩ := h
  have hr := replace_part hp hn ht hu
  suffices H : ∀ l : List (Str × Str × Shard), (∀ e ∈ l, e ∈ stacked) → (o, w, s) ∈ l → loadStacked load name t params l =
      some (params.map (fun e => if e.1 == target then (e.1, new) else e)) from H stacked (fun _ h => h) ((packs_iff _ _ _).1 hp)
  intro l
  induction l with
  | nil => intro _ h; cases h
  | cons e l ih =>
    obtain ⟨o', w', s'⟩ := e
    intro hsub hmem
    unfold loadStacked
    by_cases hocc : occurs o' name = true
    · have hp' := (packs_iff o' w' s').2 (hsub _ (by simp))
      obtain rfl := ho o' w' s' hp' ((occurs_iff _ _).1 hocc)
      obtain ⟨rfl, rfl⟩ := packs_old hp hp'
      rw [if_pos hocc]
      dsimp only
      rw [hr, hl]
      dsimp only
      rw [hnew]
    · rw [if_neg hocc]
      apply ih (fun e he => hsub e (by simp [he]))
      rcases List.mem_cons.1 hmem with h | h
      · cases h
        exact absurd ((occurs_iff _ _).2 ⟨a, b, hn.symm⟩) hocc
      · exact h

/-- A merged tensor has its place: a parameter of its name, or a part of a parameter that is not merged itself and takes it. -/
def Placed (load : Loader T) (form : Str → T → Prop) (names : List Str) (params : List Str) (e : Str × T) : Prop :=
  e.1 ∈ params ∨ ∃ target s, PartOf e.1 target s ∧ target ∈ params ∧ target ∉ names ∧ ∀ old, form target old → load target s e.2 old ≠ none

/-- C126: the merged tensors are all in the model that is evaluated: those that are parameters as they are, the others in their part of a parameter
that holds several; all other parameters and parts are as before. -/
theorem C126_packed (load : Loader T) (get : Str → Shard → T → T) (form : Str → T → Prop) (hl : Proper load get form) (ts params : List (Str × T))
    (hnd : (ts.map Prod.fst).Nodup) (hall : ∀ e ∈ ts, Placed load form (ts.map Prod.fst) (params.map Prod.fst) e)
    (hform : ∀ m ∈ ts.map Prod.fst, m ∉ params.map Prod.fst → ∀ target s x, PartOf m target s → params.lookup target = some x → form target x) :
    ∃ q, loadAll (some load) ts params = some q ∧ q.map Prod.fst = params.map Prod.fst ∧
      (∀ n t, (n, t) ∈ ts → n ∈ params.map Prod.fst → q.lookup n = some t) ∧
      (∀ n t, (n, t) ∈ ts → n ∉ params.map Prod.fst → ∀ target s, PartOf n target s → ∃ p, q.lookup target = some p ∧ get target s p = t) ∧
      (∀ n, n ∉ ts.map Prod.fst → (∀ m ∈ ts.map Prod.fst, m ∉ params.map Prod.fst → ∀ s, ¬ PartOf m n s) → q.lookup n = params.lookup n) ∧
      (∀ n s p, n ∉ ts.map Prod.fst → (∀ m ∈ ts.map Prod.fst, m ∉ params.map Prod.fst → ¬ PartOf m n s) → params.lookup n = some p →
        ∃ p', q.lookup n = some p' ∧ get n s p' = get n s p) := by
  induction ts generalizing params with
  | nil =>
    refine ⟨params, rfl, rfl, ?_, ?_, fun _ _ _ => rfl, fun n s p _ _ h => ⟨p, h, rfl⟩⟩
    · intro n t h; cases h
    · intro n t h; cases h
  | cons e ts ih =>
    obtain ⟨name, t⟩ := e
    simp only [List.map_cons, List.nodup_cons] at hnd
    have hweak : ∀ e ∈ ts, Placed load form (ts.map Prod.fst) (params.map Prod.fst) e := by
      intro e he
      rcases hall e (by simp [he]) with h | ⟨target, s, h1, h2, h3, h4⟩
      · exact .inl h
      · exact .inr ⟨target, s, h1, h2, fun hm => h3 (by simp at hm ⊢; exact .inr hm), h4⟩
    -- parts are not put into parameters that are merged themselves
    have hsep : ∀ m ∈ ts.map Prod.fst, m ∉ params.map Prod.fst → ∀ s, ¬ PartOf m name s := by
      intro m hm hnp s hpart
      obtain ⟨e, he, rfl⟩ := List.mem_map.1 hm
      rcases hall e (by simp [he]) with h | ⟨target, s', h1, _, h3, _⟩
      · exact hnp h
      · obtain ⟨rfl, rfl⟩ := partOf_fun hpart h1
        exact h3 (by simp)
    by_cases hin : name ∈ params.map Prod.fst
    · have hstep : loadOne (some load) params name t = some (params.map (fun e => if e.1 == name then (e.1, t) else e)) := by
        unfold loadOne
        rw [if_pos ((any_names _ _).2 hin)]
      obtain ⟨q, h1, h2, h3, h4, h5, h6⟩ := ih (params.map (fun e => if e.1 == name then (e.1, t) else e)) hnd.2 (by rw [names_set]; exact hweak) (by
        rw [names_set]
        intro m hm hnp target s x hpart hx
        rw [lookup_set, if_neg (by rintro rfl; exact hsep m hm hnp s hpart)] at hx
        exact hform m (by simp at hm ⊢; exact .inr hm) hnp target s x hpart hx)
      rw [names_set] at h2 h3 h4 h5 h6
      refine ⟨q, ?_, h2, ?_, ?_, ?_, ?_⟩
      · unfold loadAll
        rw [hstep]
        exact h1
      · intro n u hm hn
        rcases List.mem_cons.1 hm with h | h
        · cases h
          rw [h5 name hnd.1 hsep, lookup_set, if_pos rfl]
          obtain ⟨x, hx⟩ := (lookup_names _ _).2 hin
          rw [hx]
          rfl
        · exact h3 n u h hn
      · intro n u hm hn
        rcases List.mem_cons.1 hm with h | h
        · cases h
          exact absurd hin hn
        · exact h4 n u h hn
      · intro n hn hno
        rw [h5 n (fun h => hn (by simp at h ⊢; exact .inr h)) (fun m hm => hno m (by simp at hm ⊢; exact .inr hm)), lookup_set,
          if_neg (fun h => hn (by simp [h]))]
      · intro n s p hn hno hp
        refine h6 n s p (fun h => hn (by simp at h ⊢; exact .inr h)) (fun m hm => hno m (by simp at hm ⊢; exact .inr hm)) ?_
        rw [lookup_set, if_neg (fun h => hn (by simp [h]))]
        exact hp
    · rcases hall (name, t) (by simp) with h | ⟨target, s, hpart, htin, htn, htakes⟩
      · exact absurd h hin
      · obtain ⟨old, hold⟩ := (lookup_names _ _).2 htin
        obtain ⟨new, hnew⟩ := Option.ne_none_iff_exists'.1 (htakes old (hform name (by simp) hin target s old hpart hold))
        obtain ⟨g1, g2, g3⟩ := hl _ _ _ _ _ (hform name (by simp) hin target s old hpart hold) hnew
        have hstep : loadOne (some load) params name t = some (params.map (fun e => if e.1 == target then (e.1, new) else e)) := by
          unfold loadOne
          rw [if_neg (fun h => hin ((any_names _ _).1 h))]
          exact loadStacked_part load name target s t old new params hpart hold hnew
        obtain ⟨q, h1, h2, h3, h4, h5, h6⟩ := ih (params.map (fun e => if e.1 == target then (e.1, new) else e)) hnd.2 (by rw [names_set]; exact hweak) (by
          rw [names_set]
          intro m hm hnp target' s' x hpart' hx
          rw [lookup_set] at hx
          split at hx
          · rename_i heq
            subst heq
            rw [hold] at hx
            cases hx
            exact g3
          · exact hform m (by simp at hm ⊢; exact .inr hm) hnp target' s' x hpart' hx)
        rw [names_set] at h2 h3 h4 h5 h6
        refine ⟨q, ?_, h2, ?_, ?_, ?_, ?_⟩
        · unfold loadAll
          rw [hstep]
          exact h1
        · intro n u hm hn
          rcases List.mem_cons.1 hm with h | h
          · cases h
            exact absurd hn hin
          · exact h3 n u h hn
        · intro n u hm hn target' s' hpart'
          rcases List.mem_cons.1 hm with h | h
          · cases h
            obtain ⟨rfl, rfl⟩ := partOf_fun hpart' hpart
            obtain ⟨p', hp1, hp2⟩ := h6 target' s' new (fun h => htn (by simp at h ⊢; exact .inr h)) (by
              intro m hm _ hpm
              rw [partOf_inj hpm hpart] at hm
              exact hnd.1 hm) (by rw [lookup_set, if_pos rfl, hold]; rfl)
            exact ⟨p', hp1, by rw [hp2, g1]⟩
          · exact h4 n u h hn target' s' hpart'
        · intro n hn hno
          have hne : n ≠ target := by
            rintro rfl
            exact hno name (by simp) hin s hpart
          rw [h5 n (fun h => hn (by simp at h ⊢; exact .inr h)) (fun m hm => hno m (by simp at hm ⊢; exact .inr hm)), lookup_set, if_neg hne]
        · intro n s' p hn hno hp
          by_cases hne : n = target
          · subst hne
            rw [hold] at hp
            cases hp
            have hs : s' ≠ s := by
              rintro rfl
              exact hno name (by simp) hin hpart
            obtain ⟨p', hp1, hp2⟩ := h6 n s' new (fun h => hn (by simp at h ⊢; exact .inr h)) (fun m hm => hno m (by simp at hm ⊢; exact .inr hm))
              (by rw [lookup_set, if_pos rfl, hold]; rfl)
            exact ⟨p', hp1, by rw [hp2, g2 s' hs]⟩
          · refine h6 n s' p (fun h => hn (by simp at h ⊢; exact .inr h)) (fun m hm => hno m (by simp at hm ⊢; exact .inr hm)) ?_
            rw [lookup_set, if_neg hne]
            exact hp

/-- C126: without vLLM tensors go to the parameters of their names only. -/
theorem C126_without (ts params : List (Str × T)) : loadAll none ts params = Evolve.load ts params := by
  induction ts generalizing params with
  | nil => rfl
  | cons e ts ih =>
    obtain ⟨name, t⟩ := e
    unfold loadAll loadOne Evolve.load
    by_cases h : params.any (·.1 == name) = true
    · rw [if_pos h, if_pos h]
      exact ih _
    · rw [if_neg h, if_neg h]

/-- C126: a merged tensor that is neither a parameter nor by its name part of one is an error, with vLLM and without. -/
theorem C126_unknown (vllm : Option (Loader T)) (ts params : List (Str × T)) (n : Str) (t : T) (hm : (n, t) ∈ ts) (hn : n ∉ params.map Prod.fst)
    (hp : Plain n) : loadAll vllm ts params = none := by
  have hst : ∀ (load : Loader T) (params : List (Str × T)) (l : List (Str × Str × Shard)), (∀ e ∈ l, e ∈ stacked) → loadStacked load n t params l = none := by
    intro load params l
    induction l with
    | nil => intro _; rfl
    | cons e l ih =>
      obtain ⟨o, w, s⟩ := e
      intro hsub
      unfold loadStacked
      rw [if_neg (fun h => hp o w s ((packs_iff o w s).2 (hsub _ (by simp))) ((occurs_iff _ _).1 h))]
      exact ih (fun e he => hsub e (by simp [he]))
  have hkeep : ∀ (load : Loader T) (name : Str) (u : T) (params q : List (Str × T)) (l : List (Str × Str × Shard)),
      loadStacked load name u params l = some q → q.map Prod.fst = params.map Prod.fst := by
    intro load name u params q l
    induction l with
    | nil => intro h; cases h
    | cons e l ih =>
      obtain ⟨o, w, s⟩ := e
      intro h
      unfold loadStacked at h
      split at h
      · dsimp only at h
        split at h
        · cases h
        · split at h
          · cases h
          · cases h
            exact names_set _ _ _
      · exact ih h
  induction ts generalizing params with
  | nil => cases hm
  | cons e ts ih =>
    obtain ⟨name, u⟩ := e
    unfold loadAll
    rcases List.mem_cons.1 hm with h | h
    · cases h
      have : loadOne vllm params n t = none := by
        unfold loadOne
        rw [if_neg (fun h => hn ((any_names _ _).1 h))]
        cases vllm with
        | none => rfl
        | some load => exact hst load params stacked (fun _ h => h)
      rw [this]
    · cases hq : loadOne vllm params name u with
      | none => rfl
      | some q =>
        dsimp only
        apply ih q h
        have : q.map Prod.fst = params.map Prod.fst := by
          unfold loadOne at hq
          split at hq
          · cases hq
            exact names_set _ _ _
          · cases vllm with
            | none => cases hq
            | some load => exact hkeep load name u params q stacked hq
        rw [this]
        exact hn

end

/-! ## The length of inputs -/

/-- C126: inputs are no longer than the model's positions, its window, and 8192; where the number of positions is known, they are as long as these allow. -/
theorem C126_length (positions window : Option Nat) :
    (∀ n, maxLen positions window = some n → n ≤ 8192 ∧ (∀ w, window = some w → n ≤ w) ∧ ∀ p, positions = some p → 0 < p → n ≤ p) ∧
    (∀ p, positions = some p → 0 < p → maxLen positions window = some (min (min p 8192) (window.getD p))) ∧
    (maxLen positions window = none ↔ positions = none ∧ window = none) := by
  have hclip : ∀ n : Nat, (if 8192 < n then some 8192 else some n) = some (min n 8192) := by
    intro n
    split <;> congr 1 <;> omega
  unfold maxLen
  cases positions with
  | none =>
    cases window with
    | none => simp
    | some w =>
      simp only [Option.getD_none, if_true, hclip, Option.some.injEq]
      refine ⟨?_, by simp, by simp⟩
      rintro n rfl
      exact ⟨by omega, by rintro w' rfl; omega, by simp⟩
  | some p =>
    cases window with
    | none =>
      simp only [Option.getD_none, hclip, Option.some.injEq]
      refine ⟨?_, ?_, by simp⟩
      · rintro n rfl
        exact ⟨by omega, by simp, by rintro p' rfl; omega⟩
      · rintro p' rfl _
        omega
    | some w =>
      simp only [Option.getD_some, hclip, Option.some.injEq]
      refine ⟨?_, ?_, by simp⟩
      · rintro n rfl
        refine ⟨by omega, by rintro w' rfl; omega, ?_⟩
        rintro p' rfl h0
        rw [if_neg (by omega)]
        omega
      · rintro p' rfl h0
        rw [if_neg (by omega)]
        omega

/-! ## The names of the shipped definitions -/

/-- Where a text starts in another. -/
def starts (needle s : Str) : List Nat := (List.range (s.length + 1)).filter (fun k => needle.isPrefixOf (s.drop k))

theorem starts_mem {needle s pre post : Str} (h : s = pre ++ needle ++ post) : pre.length ∈ starts needle s := by
  unfold starts
  rw [List.mem_filter, List.mem_range]
  refine ⟨by rw [h]; simp; omega, ?_⟩
  rw [h, List.append_assoc, List.drop_left]
  exact List.isPrefixOf_iff_prefix.2 ⟨post, rfl⟩

/-- A text without digits that starts with a dot is found before or after a number. -/
theorem split_at_digits {needle a d b pre post : Str} (hdot : ∃ m, needle = '.' :: m) (hno : ∀ c ∈ needle, c.isDigit = false) (hd : d ≠ [])
    (hdig : ∀ c ∈ d, c.isDigit = true) (ha : ¬ needle <:+: a) (h : a ++ d ++ b = pre ++ needle ++ post) :
    ∃ pre', pre = a ++ d ++ pre' ∧ b = pre' ++ needle ++ post := by
  obtain ⟨m, hm⟩ := hdot
  rw [List.append_assoc, List.append_assoc, List.append_eq_append_iff] at h
  rcases h with ⟨x, hx, h⟩ | ⟨x, hx, h⟩
  · rw [List.append_eq_append_iff] at h
    rcases h with ⟨y, hy, h⟩ | ⟨y, hy, h⟩
    · exact ⟨y, by rw [hx, hy, List.append_assoc], by rw [h, List.append_assoc]⟩
    · cases y with
      | nil => exact ⟨[], by rw [hx, hy]; simp, by simpa using h.symm⟩
      | cons c y =>
        have hc := hdig c (by rw [hy]; simp)
        rw [hm] at h
        simp only [List.cons_append, List.cons.injEq] at h
        rw [← h.1] at hc
        exact absurd hc (by decide)
  · exfalso
    rcases Nat.lt_or_ge x.length needle.length with hlen | hlen
    · obtain ⟨c, d', rfl⟩ := List.exists_cons_of_ne_nil hd
      have hc := hdig c (by simp)
      have hget : (needle ++ post)[x.length]? = (x ++ (c :: d' ++ b))[x.length]? := by rw [h]
      rw [List.getElem?_append_right (le_refl _), List.getElem?_append_left hlen] at hget
      simp only [Nat.sub_self, List.cons_append, List.getElem?_cons_zero] at hget
      rw [hno c (List.mem_of_getElem? hget)] at hc
      cases hc
    · have hp : needle <+: x := by
        refine List.prefix_of_prefix_length_le (l₃ := x ++ (d ++ b)) ?_ (List.prefix_append _ _) hlen
        rw [← h]
        exact List.prefix_append _ _
      exact ha (hp.isInfix.trans ⟨pre, [], by rw [hx]; simp⟩)

/-- The name is `front` and `rest`, and the words are only found in `rest`. -/
def Within (front rest : Str) : Prop :=
  ∀ old new s, Packs old new s → (∀ pre post, front ++ rest = pre ++ old ++ post → ∃ pre', pre = front ++ pre' ∧ rest = pre' ++ old ++ post) ∧
    (∀ pre post, front ++ rest = pre ++ new ++ post → ∃ pre', pre = front ++ pre' ∧ rest = pre' ++ new ++ post)

def restOk (rest : Str) : Bool :=
  match stacked.filter (fun e => occurs e.1 rest) with
  | [] => true
  | [(old, new, _)] => decide ((starts old rest).length ≤ 1) && !occurs new rest
  | _ => false

theorem found {front rest : Str} (h : Within front rest) (hok : restOk rest = true) :
    Plain (front ++ rest) ∨ ∃ target s old new, PartOf (front ++ rest) target s ∧ Packs old new s ∧ old <:+: rest ∧ new <:+: target := by
  have hin : ∀ old new s, Packs old new s → old <:+: front ++ rest → old <:+: rest := by
    rintro old new s hp ⟨x, y, hxy⟩
    obtain ⟨x', _, he⟩ := (h old new s hp).1 x y hxy.symm
    exact ⟨x', y, he.symm⟩
  have hmem : ∀ old new s, Packs old new s → old <:+: front ++ rest → (old, new, s) ∈ stacked.filter (fun e => occurs e.1 rest) := by
    intro old new s hp hi
    rw [List.mem_filter]
    exact ⟨(packs_iff _ _ _).1 hp, (occurs_iff _ _).2 (hin old new s hp hi)⟩
  unfold restOk at hok
  split at hok
  · rename_i heq
    left
    intro old new s hp hi
    have := hmem old new s hp hi
    rw [heq] at this
    cases this
  · rename_i old new s heq
    simp only [Bool.and_eq_true, decide_eq_true_eq, Bool.not_eq_true'] at hok
    have hmm : (old, new, s) ∈ stacked.filter (fun e => occurs e.1 rest) := by rw [heq]; simp
    rw [List.mem_filter] at hmm
    have hp := (packs_iff _ _ _).2 hmm.1
    obtain ⟨a, b, hab⟩ := (occurs_iff _ _).1 hmm.2
    right
    refine ⟨front ++ a ++ new ++ b, s, old, new, ⟨old, new, front ++ a, b, hp, by rw [← hab]; simp, rfl, ?_, ?_, ?_⟩, hp, ⟨a, b, hab⟩, ⟨front ++ a, b, rfl⟩⟩
    · intro a' b' he
      obtain ⟨a'', rfl, he'⟩ := (h old new s hp).1 a' b' he
      have m1 := starts_mem he'
      have m2 := starts_mem hab.symm
      have hl : a''.length = a.length := by
        match hs : starts old rest with
        | [] => rw [hs] at m1; cases m1
        | [k] =>
          rw [hs, List.mem_singleton] at m1 m2
          omega
        | k :: l :: r => rw [hs] at hok; simp at hok
      have e : a'' ++ (old ++ b') = a ++ (old ++ b) := by rw [← List.append_assoc, ← he', ← List.append_assoc, hab]
      rw [(List.append_inj e hl).1]
    · intro old' new' s' hp' hi
      have := hmem old' new' s' hp' hi
      rw [heq, List.mem_singleton] at this
      exact (Prod.mk.inj this).1
    · rintro ⟨x, y, hxy⟩
      obtain ⟨x', _, he⟩ := (h old new s hp).2 x y hxy.symm
      have := (occurs_iff new rest).2 ⟨x', y, he.symm⟩
      rw [hok.2] at this
      cases this
  · cases hok

theorem within_nil (rest : Str) : Within [] rest := by
  intro old new s _
  exact ⟨fun pre post h => ⟨pre, rfl, h⟩, fun pre post h => ⟨pre, rfl, h⟩⟩

theorem packs_digits {old new : Str} {s : Shard} (h : Packs old new s) :
    (∀ c ∈ old, c.isDigit = false) ∧ ∀ c ∈ new, c.isDigit = false := by
  cases h <;> decide

theorem within_layer {a rest : Str} (i : Nat) (ha : stacked.all (fun e => !occurs e.1 a && !occurs e.2.1 a) = true) :
    Within (a ++ Nat.toDigits 10 i) rest := by
  intro old new s hp
  have hm := List.all_eq_true.1 ha _ ((packs_iff _ _ _).1 hp)
  simp only [Bool.and_eq_true, Bool.not_eq_true'] at hm
  obtain ⟨⟨m, hnew, _⟩, hold⟩ := packs_new hp
  obtain ⟨d1, d2⟩ := packs_digits hp
  have hd := Nat.toDigits_ne_nil (n := i) (b := 10)
  constructor
  · intro pre post h
    exact split_at_digits hold d1 hd (Verif.Writer.digits_all i) (fun hi => by rw [(occurs_iff _ _).2 hi] at hm; cases hm.1) h
  · intro pre post h
    exact split_at_digits ⟨m ++ ['.'], hnew⟩ d2 hd (Verif.Writer.digits_all i) (fun hi => by rw [(occurs_iff _ _).2 hi] at hm; cases hm.2) h

theorem splitId_total (s : Str) : Verif.Arch.splitId ("num_layers}".toList ++ s) = some ("num_layers".toList, '}' :: s) := by
  unfold Verif.Arch.splitId
  have h1 : List.takeWhile Verif.Arch.isIdChar ("um_layers".toList ++ '}' :: s) = "um_layers".toList := by
    rw [List.takeWhile_append_of_pos (by decide)]
    simp [show Verif.Arch.isIdChar '}' = false by decide]
  have h2 : List.dropWhile Verif.Arch.isIdChar ("um_layers".toList ++ '}' :: s) = '}' :: s := by
    rw [List.dropWhile_append_of_pos (by decide)]
    simp [show Verif.Arch.isIdChar '}' = false by decide]
  have e : "num_layers}".toList ++ s = 'n' :: ("um_layers".toList ++ '}' :: s) := rfl
  rw [e]
  simp only [show Verif.Arch.isIdStart 'n' = true by decide, if_true, h1, h2]
  rfl

/-- The number of layers in a template. -/
theorem expand_total (pre post : Str) (hpre : '$' ∉ pre) (hpost : '$' ∉ post) (n : Nat) (layer : Option Int) :
    Verif.Arch.expand (pre ++ cs!"${num_layers}" ++ post) n layer = .ok (pre ++ Nat.toDigits 10 n ++ post) := by
  have hb : '{' ∈ pre ++ cs!"${num_layers}" ++ post := by simp
  unfold Verif.Arch.expand
  rw [if_pos hb]
  have hlen : (pre ++ cs!"${num_layers}" ++ post).length = pre.length + (1 + (post.length + 12)) := by simp; omega
  rw [hlen, List.append_assoc, Verif.Arch.pieces_plain hpre]
  have e : cs!"${num_layers}" ++ post = '$' :: '{' :: ("num_layers}".toList ++ post) := rfl
  have h1 : Verif.Arch.pieces (1 + (post.length + 12)) (cs!"${num_layers}" ++ post) =
      Verif.Arch.Piece.var "num_layers".toList :: Verif.Arch.pieces (post.length + 12) post := by
    rw [e, Nat.add_comm 1]
    simp only [Verif.Arch.pieces, Verif.Arch.afterDollar, splitId_total]
  rw [h1]
  have h2 := Verif.Arch.pieces_plain hpost 12 []
  rw [List.append_nil] at h2
  rw [h2, Verif.Arch.render_lits]
  have h3 : Verif.Arch.pieces 12 [] = [] := rfl
  rw [h3]
  have h4 : Verif.Arch.render n layer (Verif.Arch.Piece.var "num_layers".toList :: (post.map Verif.Arch.Piece.lit ++ [])) = .ok (Nat.toDigits 10 n ++ post) := by
    unfold Verif.Arch.render
    have h5 : Verif.Arch.renderPiece n layer (Verif.Arch.Piece.var "num_layers".toList) = .ok (Nat.toDigits 10 n) := rfl
    rw [h5, Verif.Arch.render_lits]
    simp [Verif.Arch.render, Except.map]
  rw [h4]
  simp [Except.map]

/-- A template with a placeholder: the part before it, and the part after. -/
def cut (name : Str) : Str × Str := (name.takeWhile (· != '$'), (name.dropWhile (· != '}')).drop 1)

/-- What is looked at of a template: all of it, or what follows the number. -/
def tail (p name : Str) : Str := if '{' ∈ name then (cut name).2 else p ++ name

def nameOk (layered : Bool) (p name : Str) : Bool :=
  if '{' ∈ name then
    decide (name = (cut name).1 ++ (if layered then cs!"${layer_index}" else cs!"${num_layers}") ++ (cut name).2) && decide ('$' ∉ (cut name).1) &&
      decide ('$' ∉ (cut name).2) &&
      stacked.all (fun e => !occurs e.1 (p ++ (cut name).1) && !occurs e.2.1 (p ++ (cut name).1)) && restOk (cut name).2
  else restOk (p ++ name)

/-- All templates of a definition: whether they are of a layer, the prefix of the module, the template. -/
def templates (ms : List Module) : List (Bool × Str × Str) :=
  ms.flatMap (fun m => (m.pre ++ m.post).map (fun w => (false, m.weightPrefix.getD [], w.name)) ++ m.layers.map (fun w => (true, m.weightPrefix.getD [], w.name)))

def archOk (ms : List Module) : Bool :=
  (templates ms).all (fun e => nameOk e.1 e.2.1 e.2.2) &&
    stacked.all (fun e => !((templates ms).any (fun t => occurs e.1 (tail t.2.1 t.2.2))) || !((templates ms).any (fun t => occurs e.2.1 (tail t.2.1 t.2.2))))

theorem name_found {layered : Bool} {p name : Str} (h : nameOk layered p name = true) (n : Nat) (layer : Option Nat)
    (hl : layered = layer.isSome) {v : Str} (hv : Verif.Arch.expand name n (layer.map Int.ofNat) = .ok v) :
    ∃ front, p ++ v = front ++ tail p name ∧ Within front (tail p name) ∧ restOk (tail p name) = true := by
  unfold nameOk at h
  unfold tail
  by_cases hb : '{' ∈ name
  · rw [if_pos hb] at h ⊢
    simp only [Bool.and_eq_true, decide_eq_true_eq] at h
    obtain ⟨⟨⟨⟨h1, h2⟩, h3⟩, h4⟩, h5⟩ := h
    have key : ∃ i, v = (cut name).1 ++ Nat.toDigits 10 i ++ (cut name).2 := by
      cases layer with
      | none =>
        cases hl
        rw [h1] at hv
        exact ⟨n, Except.ok.inj (hv.symm.trans (expand_total _ _ h2 h3 n _))⟩
      | some i =>
        cases hl
        rw [h1] at hv
        exact ⟨i, Except.ok.inj (hv.symm.trans (Verif.Arch.C63_replaces _ _ h2 h3 n i))⟩
    obtain ⟨i, rfl⟩ := key
    exact ⟨p ++ (cut name).1 ++ Nat.toDigits 10 i, by simp, within_layer i h4, h5⟩
  · rw [if_neg hb] at h ⊢
    have e := hv.symm.trans (Verif.Arch.C63_plain name hb n _)
    rw [Except.ok.inj e]
    exact ⟨[], rfl, within_nil _, h⟩

theorem prefix_name (u : WeightInfo) (p : Option Str) : (Verif.Arch.prefixWeight u p).name = p.getD [] ++ u.name := by cases p <;> rfl

theorem weight_template {ms : List Module} {ns : List Nat} {ws : List WeightInfo} (h : Verif.Arch.allWeights (ms.zip ns) = .ok ws) (w : WeightInfo)
    (hw : w ∈ ws) : ∃ t ∈ templates ms, ∃ (n : Nat) (layer : Option Nat) (v : Str), t.1 = layer.isSome ∧
      Verif.Arch.expand t.2.2 n (layer.map Int.ofNat) = .ok v ∧ w.name = t.2.1 ++ v := by
  obtain ⟨⟨m, n⟩, hp, us, hus, u, hu, rfl⟩ := (Verif.Arch.C63_model _ _ h w).1 hw
  have hm : m ∈ ms := (List.of_mem_zip hp).1
  simp only at hus
  rw [prefix_name]
  rcases ((Verif.Arch.C63_module m n us hus).1 u).1 hu with ⟨x, hx, hsub⟩ | ⟨i, _, x, hx, hsub⟩
  · refine ⟨(false, m.weightPrefix.getD [], x.name), ?_, _, none, u.name, rfl, ((Verif.Arch.C63_weight _ _ _ _).1 hsub).1, rfl⟩
    refine List.mem_flatMap.2 ⟨m, hm, List.mem_append_left _ (List.mem_map.2 ⟨x, hx, rfl⟩)⟩
  · refine ⟨(true, m.weightPrefix.getD [], x.name), ?_, _, some i, u.name, rfl, ((Verif.Arch.C63_weight _ _ _ _).1 hsub).1, rfl⟩
    refine List.mem_flatMap.2 ⟨m, hm, List.mem_append_right _ (List.mem_map.2 ⟨x, hx, rfl⟩)⟩

theorem arch_names {ms : List Module} (hok : archOk ms = true) {ns : List Nat} {ws : List WeightInfo} (h : Verif.Arch.allWeights (ms.zip ns) = .ok ws) :
    ∀ w ∈ ws, Plain w.name ∨ ∃ target s, PartOf w.name target s ∧ target ∉ ws.map WeightInfo.name := by
  unfold archOk at hok
  rw [Bool.and_eq_true, List.all_eq_true, List.all_eq_true] at hok
  intro w hw
  obtain ⟨t, ht, n, layer, v, hl, hv, hname⟩ := weight_template h w hw
  obtain ⟨front, hf, hwithin, hrest⟩ := name_found (hok.1 t ht) n layer hl hv
  rw [hname, hf]
  rcases found hwithin hrest with hp | ⟨target, s, old, new, hpart, hp, hold, hnew⟩
  · exact .inl hp
  · refine .inr ⟨target, s, hpart, ?_⟩
    intro hm
    obtain ⟨w', hw', rfl⟩ := List.mem_map.1 hm
    obtain ⟨t', ht', n', layer', v', hl', hv', hname'⟩ := weight_template h w' hw'
    obtain ⟨front', hf', hwithin', _⟩ := name_found (hok.1 t' ht') n' layer' hl' hv'
    obtain ⟨x, y, hxy⟩ := hnew
    rw [hname', hf'] at hxy
    obtain ⟨x', _, he⟩ := (hwithin' old new s hp).2 x y hxy.symm
    have hc := hok.2 _ ((packs_iff _ _ _).1 hp)
    rw [Bool.or_eq_true, Bool.not_eq_true', Bool.not_eq_true', List.any_eq_false, List.any_eq_false] at hc
    rcases hc with hc | hc
    · exact hc t ht ((occurs_iff _ _).2 hold)
    · exact hc t' ht' ((occurs_iff _ _).2 ⟨x', y, he.symm⟩)

theorem arch_ok (ms : List Module) (h : ms ∈ Verif.Arch.distinctArchs) : archOk ms = true := by
  have h1 : Verif.Arch.distinctArchs.all archOk = true := by decide +kernel
  exact List.all_eq_true.1 h1 ms h

/-- C126: for every shipped definition but those of Qwen2-VL and Qwen2.5-VL, whose names repeat, and for all numbers of layers, it is clear where each tensor goes: its name has none of the words, or one of them, once, and then the parameter it is a part of is not the name of
another tensor. -/
theorem C126_names (ms : List Module) (hms : ms ∈ Verif.Arch.distinctArchs) (ns : List Nat)
    (hlen : ns.length = ms.length) : ∃ ws, Verif.Arch.allWeights (ms.zip ns) = .ok ws ∧ (ws.map WeightInfo.name).Nodup ∧
      ∀ w ∈ ws, Plain w.name ∨ ∃ target s, PartOf w.name target s ∧ target ∉ ws.map WeightInfo.name := by
  obtain ⟨ws, h, hnd⟩ := Verif.Arch.C63_shipped ms hms ns hlen
  exact ⟨ws, h, hnd, arch_names (arch_ok ms hms) h⟩

/-- The parameters that vLLM has for these names: those without the words, and those that hold the others. -/
def Packing (names params : List Str) : Prop :=
  ∀ n ∈ names, (Plain n → n ∈ params) ∧ ∀ target s, PartOf n target s → target ∈ params ∧ n ∉ params

/-- C126: a merge of models of a shipped definition is in vLLM's model whole, for all numbers of layers: if vLLM has parameters for its names and they
take tensors of the merge, then no tensor is refused; those with parameters of their own are these parameters, the others are the parts of theirs;
and a parameter or part that is of no merged tensor is as before. -/
theorem C126_shipped {T : Type} (ms : List Module) (hms : ms ∈ Verif.Arch.distinctArchs) (ns : List Nat)
    (hlen : ns.length = ms.length) (load : Loader T) (get : Str → Shard → T → T) (form : Str → T → Prop) (hl : Proper load get form) (value : Str → T)
    (params : List (Str × T)) (hform : ∀ n x, (n, x) ∈ params → form n x) :
    ∃ ws, Verif.Arch.allWeights (ms.zip ns) = .ok ws ∧
      (Packing (ws.map WeightInfo.name) (params.map Prod.fst) →
       (∀ w ∈ ws, ∀ target s old, PartOf w.name target s → form target old → load target s (value w.name) old ≠ none) →
       ∃ q, loadAll (some load) (ws.map (fun w => (w.name, value w.name))) params = some q ∧ q.map Prod.fst = params.map Prod.fst ∧
        (∀ w ∈ ws, Plain w.name → q.lookup w.name = some (value w.name)) ∧
        (∀ w ∈ ws, ∀ target s, PartOf w.name target s → ∃ p, q.lookup target = some p ∧ get target s p = value w.name) ∧
        (∀ n, n ∉ ws.map WeightInfo.name → (∀ w ∈ ws, ∀ s, ¬ PartOf w.name n s) → q.lookup n = params.lookup n) ∧
        (∀ n s p, n ∉ ws.map WeightInfo.name → (∀ w ∈ ws, ¬ PartOf w.name n s) → params.lookup n = some p →
          ∃ p', q.lookup n = some p' ∧ get n s p' = get n s p)) := by
  obtain ⟨ws, h, hnd, hall⟩ := C126_names ms hms ns hlen
  refine ⟨ws, h, ?_⟩
  intro hpack htakes
  have hn : (ws.map (fun w => (w.name, value w.name))).map Prod.fst = ws.map WeightInfo.name := by
    rw [List.map_map]
    rfl
  have hlook : ∀ (l : List (Str × T)) n x, l.lookup n = some x → (n, x) ∈ l := by
    intro l
    induction l with
    | nil => intro n x h; cases h
    | cons e l ih =>
      obtain ⟨k, y⟩ := e
      intro n x h
      rw [List.lookup_cons] at h
      by_cases hk : n = k
      · subst hk
        simp at h
        simp [h]
      · have : (n == k) = false := by simpa using hk
        rw [this] at h
        exact List.mem_cons_of_mem _ (ih n x h)
  obtain ⟨q, h1, h2, h3, h4, h5, h6⟩ := C126_packed load get form hl (ws.map (fun w => (w.name, value w.name))) params (by rw [hn]; exact hnd) (by
      intro e he
      obtain ⟨w, hw, rfl⟩ := List.mem_map.1 he
      have hwn : w.name ∈ ws.map WeightInfo.name := List.mem_map.2 ⟨w, hw, rfl⟩
      rw [hn]
      rcases hall w hw with hp | ⟨target, s, hp, hnot⟩
      · exact .inl ((hpack _ hwn).1 hp)
      · exact .inr ⟨target, s, hp, ((hpack _ hwn).2 target s hp).1, hnot, fun old => htakes w hw target s old hp⟩)
    (fun m _ _ target s x _ hx => hform target x (hlook _ _ _ hx))
  rw [hn] at h5 h6
  refine ⟨q, h1, h2, ?_, ?_, ?_, ?_⟩
  · intro w hw hp
    exact h3 w.name _ (List.mem_map.2 ⟨w, hw, rfl⟩) ((hpack _ (List.mem_map.2 ⟨w, hw, rfl⟩)).1 hp)
  · intro w hw target s hp
    exact h4 w.name _ (List.mem_map.2 ⟨w, hw, rfl⟩) ((hpack _ (List.mem_map.2 ⟨w, hw, rfl⟩)).2 target s hp).2 target s hp
  · intro n hnn hno
    refine h5 n hnn ?_
    intro m hm _ s hp
    obtain ⟨w, hw, rfl⟩ := List.mem_map.1 hm
    exact hno w hw s hp
  · intro n s p hnn hno hp
    refine h6 n s p hnn ?_ hp
    intro m hm _ hpart
    obtain ⟨w, hw, rfl⟩ := List.mem_map.1 hm
    exact hno w hw hpart

open Classical in
/-- There are such parameters for every shipped definition. -/
theorem C126_packing (ms : List Module) (hms : ms ∈ Verif.Arch.distinctArchs) (ns : List Nat)
    (hlen : ns.length = ms.length) : ∃ ws params, Verif.Arch.allWeights (ms.zip ns) = .ok ws ∧ Packing (ws.map WeightInfo.name) params := by
  obtain ⟨ws, h, _, hall⟩ := C126_names ms hms ns hlen
  refine ⟨ws, (ws.map WeightInfo.name).map (fun n => if h : ∃ target s, PartOf n target s then h.choose else n), h, ?_⟩
  intro n hn
  constructor
  · intro hp
    refine List.mem_map.2 ⟨n, hn, dif_neg ?_⟩
    rintro ⟨target, s, old, new, a, b, hk, he, _⟩
    exact hp old new s hk ⟨a, b, he.symm⟩
  · intro target s hp
    constructor
    · refine List.mem_map.2 ⟨n, hn, ?_⟩
      have hex : ∃ target s, PartOf n target s := ⟨target, s, hp⟩
      rw [dif_pos hex]
      obtain ⟨s', hs'⟩ := hex.choose_spec
      exact (partOf_fun hs' hp).1
    · intro hm
      obtain ⟨m, hm, he⟩ := List.mem_map.1 hm
      split at he
      · rename_i hex
        obtain ⟨s', hs'⟩ := hex.choose_spec
        obtain ⟨w, hw, rfl⟩ := List.mem_map.1 hm
        rcases hall w hw with hpl | ⟨t, s'', hpt, hnot⟩
        · obtain ⟨old, new, a, b, hk, hee, _⟩ := hs'
          exact hpl old new s' hk ⟨a, b, hee.symm⟩
        · rw [(partOf_fun hpt hs').1, he] at hnot
          exact hnot hn
      · rename_i hex
        exact hex ⟨target, s, by rw [he]; exact hp⟩

/-! ## An instance: the parts are the places of a vector -/

/-- Parameters with five places; `Option` for what is not a vector of five. -/
def place : Shard → Fin 5
  | .q => 0
  | .k => 1
  | .v => 2
  | .first => 3
  | .second => 4

def demoLoad : Loader (List Nat) := fun _ s v x =>
  match v with
  | [a] => if x.length = 5 then some (x.set (place s) a) else none
  | _ => none

def demoGet : Str → Shard → List Nat → List Nat := fun _ s x => (x[(place s).val]?).toList

theorem demo_proper : Proper demoLoad demoGet (fun _ x => x.length = 5) := by
  intro target s v x y hx h
  unfold demoLoad at h
  split at h
  · rename_i a
    rw [if_pos hx] at h
    cases h
    refine ⟨?_, ?_, by simpa using hx⟩
    · unfold demoGet
      rw [List.getElem?_set_self (by rw [hx]; exact (place s).isLt)]
      rfl
    · intro s' hs'
      unfold demoGet
      rw [List.getElem?_set_ne]
      intro he
      apply hs'
      cases s <;> cases s' <;> first | rfl | (simp [place] at he)
  · cases h

/-- The names of a layer of Llama. -/
example : PartOf cs!"model.layers.11.self_attn.k_proj.weight" cs!"model.layers.11.self_attn.qkv_proj.weight" .k := by
  have hw : Within cs!"model.layers.11" cs!".self_attn.k_proj.weight" := within_layer (a := cs!"model.layers.") 11 (by decide +kernel)
  rcases found hw (by decide +kernel) with h | ⟨target, s, old, new, h, _⟩
  · exact absurd ⟨cs!"model.layers.11.self_attn", cs!"weight", rfl⟩ (h _ _ _ .k)
  · obtain ⟨old, new, a, b, hp, hn, ht, hu, ho, hnn⟩ := h
    obtain rfl := ho _ _ _ .k ⟨cs!"model.layers.11.self_attn", cs!"weight", rfl⟩
    obtain ⟨rfl, rfl⟩ := packs_old .k hp
    exact ⟨_, _, cs!"model.layers.11.self_attn", cs!"weight", .k, rfl, rfl, by
      intro a' b' he
      rw [hu a' b' he]
      exact (hu cs!"model.layers.11.self_attn" cs!"weight" rfl).symm, ho, hnn⟩

example : loadAll (some demoLoad)
    [(cs!"model.norm.weight", [7]), (cs!"model.layers.0.self_attn.k_proj.weight", [1]), (cs!"model.layers.0.mlp.up_proj.weight", [2])]
    [(cs!"model.norm.weight", [0]), (cs!"model.layers.0.self_attn.qkv_proj.weight", [0, 0, 5, 0, 0]),
     (cs!"model.layers.0.mlp.gate_up_proj.weight", [0, 0, 0, 9, 9]), (cs!"model.embed_tokens.weight", [3])] =
    some [(cs!"model.norm.weight", [7]), (cs!"model.layers.0.self_attn.qkv_proj.weight", [0, 1, 5, 0, 0]),
     (cs!"model.layers.0.mlp.gate_up_proj.weight", [0, 0, 0, 9, 2]), (cs!"model.embed_tokens.weight", [3])] := by decide +kernel

/-- A model whose head is tied to its embedding has no parameter for the head, but the merge has a tensor for it. -/
example : loadAll (some demoLoad) [(cs!"model.embed_tokens.weight", [1]), (cs!"lm_head.weight", [1])] [(cs!"model.embed_tokens.weight", [0])] = none :=
  C126_unknown _ _ _ cs!"lm_head.weight" [1] (by simp) (by decide) (by rintro o w s (_ | _) <;> decide +kernel)

example : maxLen (some 32768) (some 4096) = some 4096 ∧ maxLen (some 32768) none = some 8192 ∧ maxLen none (some 4096) = some 1024 := by decide

end Verif.Packed
