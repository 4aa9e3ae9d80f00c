import Verif.Model.LoadTask
import Verif.Props.ModelRef
import Mathlib.Data.List.Nodup

/-! # C18, C19 -/

namespace Verif.LoadTask

open Verif.ModelRef (Str Ref splitChar splitChar_append C24_never_alike_partial)

/-! ## C18 -/

section
variable {T : Type} (c : Casts T)

/-- The names a weight may be stored under, in order of preference. -/
def LoadTensor.candidates (t : LoadTensor) : List String := t.tensor :: (t.aliases ++ t.tiedNames)

/-- The data type names, with or without "torch." in front (specification). -/
def typeNames : List (String × DType) :=
  [("bfloat16", .bfloat16), ("float16", .float16), ("float32", .float32), ("int64", .int64),
   ("torch.bfloat16", .bfloat16), ("torch.float16", .float16), ("torch.float32", .float32), ("torch.int64", .int64)]

/-- **C18** The data type names accepted are exactly the eight of the table. -/
theorem C18_type_names (n : String) : (∀ d, dtypeFromName n = .ok d ↔ (n, d) ∈ typeNames) ∧
    ((∀ d, (n, d) ∉ typeNames) → dtypeFromName n = .error .badDtype) := by
  have hstr : ∀ (t : String) (l : List Char), t.toList = l → n.toList = l → n = t := by
    intro t l h1 h2; exact String.toList_inj.1 (h2.trans h1.symm)
  have hfwd : ∀ d, dtypeFromName n = .ok d → (n, d) ∈ typeNames := by
    intro d h
    unfold dtypeFromName at h
    have key : ∀ base : List Char, dropTorch n.toList = base →
        n.toList = base ∨ n.toList = "torch.".toList ++ base := by
      intro base hb
      unfold dropTorch at hb
      split at hb
      · rename_i hp
        obtain ⟨r, hr⟩ := hp
        right
        rw [← hr] at hb ⊢
        rw [← hb]
        rfl
      · left; exact hb
    simp only at h
    split at h
    · rename_i hb
      cases h
      rcases key _ hb with h | h
      · rw [hstr "bfloat16" _ rfl h]; simp [typeNames]
      · rw [hstr "torch.bfloat16" _ (by decide) h]; simp [typeNames]
    · split at h
      · rename_i hb
        cases h
        rcases key _ hb with h | h
        · rw [hstr "float16" _ rfl h]; simp [typeNames]
        · rw [hstr "torch.float16" _ (by decide) h]; simp [typeNames]
      · split at h
        · rename_i hb
          cases h
          rcases key _ hb with h | h
          · rw [hstr "float32" _ rfl h]; simp [typeNames]
          · rw [hstr "torch.float32" _ (by decide) h]; simp [typeNames]
        · split at h
          · rename_i hb
            cases h
            rcases key _ hb with h | h
            · rw [hstr "int64" _ rfl h]; simp [typeNames]
            · rw [hstr "torch.int64" _ (by decide) h]; simp [typeNames]
          · cases h
  have hall : ∀ e ∈ typeNames, dtypeFromName e.1 = .ok e.2 := by decide
  refine ⟨fun d => ⟨hfwd d, fun h => hall _ h⟩, ?_⟩
  intro hno
  cases h : dtypeFromName n with
  | ok d => exact absurd (hfwd d h) (hno d)
  | error e =>
    unfold dtypeFromName at h
    simp only at h
    split at h
    · cases h
    · split at h
      · cases h
      · split at h
        · cases h
        · split at h <;> cases h
          rfl

/-- The outcome of asking for data type `dtype` (specification): nothing asked, or already of that type: the tensor itself;
otherwise the tensor cast to that type; unknown names are an error. -/
inductive Delivered (c : Casts T) (x : T) : Option String → Except Err T → Prop
  | unchanged (d) (h : d = none ∨ d = some "") : Delivered c x d (.ok x)
  | same (n) (hn : n ≠ "") (h : (n, c.dtypeOf x) ∈ typeNames) : Delivered c x (some n) (.ok x)
  | cast (n) (d : DType) (hn : n ≠ "") (h : (n, d) ∈ typeNames) (hd : d ≠ c.dtypeOf x) :
      Delivered c x (some n) (.ok (c.cast d x))
  | unknown (n) (hn : n ≠ "") (h : ∀ d, (n, d) ∉ typeNames) : Delivered c x (some n) (.error .badDtype)

theorem toDtype_delivered (d : Option String) (x : T) : Delivered c x d (toDtype c d x) := by
  unfold toDtype
  cases d with
  | none => exact .unchanged _ (Or.inl rfl)
  | some n =>
    simp only
    split
    · rename_i h; subst h; exact .unchanged _ (Or.inr rfl)
    · rename_i h
      cases hd : dtypeFromName n with
      | error e =>
        have hno : ∀ d, (n, d) ∉ typeNames := by
          intro d hin
          rw [((C18_type_names n).1 d).2 hin] at hd
          cases hd
        rw [(C18_type_names n).2 hno] at hd
        cases hd
        exact .unknown n h hno
      | ok d =>
        have hd' := ((C18_type_names n).1 d).1 hd
        simp only
        split
        · rename_i hh; subst hh; exact .same n h hd'
        · rename_i hh; exact .cast n d h hd' hh

/-- **C18** The first available candidate name is read: the canonical name, then the aliases, then the tied names. -/
theorem C18_first_name (t : LoadTensor) (l : Loader T) (pre post : List String) (n : String) (x : T)
    (hc : t.candidates = pre ++ n :: post) (hn : n ∈ l.names) (hne : n ≠ "") (hpre : ∀ p ∈ pre, p ∉ l.names)
    (hx : l.fetch n = .ok x) :
    ∃ out, Delivered c x t.dtype out ∧
      t.execute c l = (match out with | .ok y => .ok (some y) | .error e => .error e) := by
  have hr : t.resolve l = some n := by
    unfold LoadTensor.resolve
    have : [t.tensor] ++ t.aliases ++ t.tiedNames = pre ++ n :: post := by rw [← hc]; simp [LoadTensor.candidates]
    rw [this, List.find?_append]
    have h0 : pre.find? (fun n => decide (n ∈ l.names)) = none := by
      rw [List.find?_eq_none]; simpa using hpre
    simp [h0, hn]
  refine ⟨_, toDtype_delivered c t.dtype x, ?_⟩
  unfold LoadTensor.execute LoadTensor.raw
  simp only [hr, hne, if_false, hx]
  cases toDtype c t.dtype x <;> rfl

/-- **C18** A failure to read the chosen tensor is reported, not papered over with another name. -/
theorem C18_read_error (t : LoadTensor) (l : Loader T) (pre post : List String) (n : String) (e : Err)
    (hc : t.candidates = pre ++ n :: post) (hn : n ∈ l.names) (hne : n ≠ "") (hpre : ∀ p ∈ pre, p ∉ l.names)
    (hx : l.fetch n = .error e) : t.execute c l = .error e := by
  have hr : t.resolve l = some n := by
    unfold LoadTensor.resolve
    have : [t.tensor] ++ t.aliases ++ t.tiedNames = pre ++ n :: post := by rw [← hc]; simp [LoadTensor.candidates]
    rw [this, List.find?_append]
    have h0 : pre.find? (fun n => decide (n ∈ l.names)) = none := by
      rw [List.find?_eq_none]; simpa using hpre
    simp [h0, hn]
  unfold LoadTensor.execute LoadTensor.raw
  simp only [hr, hne, if_false, hx]

theorem resolve_none (t : LoadTensor) (l : Loader T) (h : ∀ p ∈ t.candidates, p ∉ l.names) : t.resolve l = none := by
  unfold LoadTensor.resolve
  rw [List.find?_eq_none]
  intro p hp
  simpa using h p (by simpa [LoadTensor.candidates] using hp)

/-- **C18** If no candidate is available, the first of canonical name and aliases that conversion can produce is used. -/
theorem C18_converted (t : LoadTensor) (l : Loader T) (pre post : List String) (n : String) (x : T)
    (hno : ∀ p ∈ t.candidates, p ∉ l.names) (hc : t.tensor :: t.aliases = pre ++ n :: post)
    (hpre : ∀ p ∈ pre, l.convert p = .ok none) (hx : l.convert n = .ok (some x)) :
    ∃ out, Delivered c x t.dtype out ∧
      t.execute c l = (match out with | .ok y => .ok (some y) | .error e => .error e) := by
  have hconv : convertFirst l ([t.tensor] ++ t.aliases) = .ok (some x) := by
    have : [t.tensor] ++ t.aliases = pre ++ n :: post := by rw [← hc]; rfl
    rw [this]
    clear this hc
    induction pre with
    | nil => simp [convertFirst, hx]
    | cons p ps ih =>
      simp only [List.cons_append, convertFirst, hpre p (by simp)]
      exact ih (fun q hq => hpre q (by simp [hq]))
  refine ⟨_, toDtype_delivered c t.dtype x, ?_⟩
  unfold LoadTensor.execute LoadTensor.raw
  simp only [resolve_none t l hno, hconv]
  cases toDtype c t.dtype x <;> rfl

/-- **C18** A weight that is nowhere to be found: nothing if optional, an error naming it otherwise. -/
theorem C18_missing (t : LoadTensor) (l : Loader T) (hno : ∀ p ∈ t.candidates, p ∉ l.names)
    (hconv : ∀ p ∈ t.tensor :: t.aliases, l.convert p = .ok none) :
    (t.optional = true → t.execute c l = .ok none) ∧
    (t.optional = false → t.execute c l = .error (.required t.tensor)) := by
  have hc : convertFirst l ([t.tensor] ++ t.aliases) = .ok none := by
    have : ∀ ns : List String, (∀ p ∈ ns, l.convert p = .ok none) → convertFirst l ns = .ok none := by
      intro ns
      induction ns with
      | nil => intro _; rfl
      | cons n ns ih =>
        intro h
        simp only [convertFirst, h n (by simp)]
        exact ih (fun q hq => h q (by simp [hq]))
    exact this _ hconv
  unfold LoadTensor.execute LoadTensor.raw
  simp only [resolve_none t l hno, hc]
  constructor <;> intro h <;> simp [h]

/-- **C18** A delivered tensor has the type asked for. -/
theorem C18_dtype (t : LoadTensor) (l : Loader T) (hcast : ∀ d x, c.dtypeOf (c.cast d x) = d) (n : String) (d : DType)
    (ht : t.dtype = some n) (hd : (n, d) ∈ typeNames) (y : T)
    (hy : t.execute c l = .ok (some y)) : c.dtypeOf y = d := by
  have hn : n ≠ "" := by
    rintro rfl
    simp [typeNames] at hd
  replace hd := ((C18_type_names n).1 d).2 hd
  unfold LoadTensor.execute at hy
  cases hr : t.raw l with
  | error e => rw [hr] at hy; cases hy
  | ok o =>
    rw [hr] at hy
    cases o with
    | none => simp only at hy; split at hy <;> cases hy
    | some x =>
      simp only [toDtype, ht, hn, if_false, hd] at hy
      split at hy
      · rename_i hh
        rw [← show x = y by simpa using hy, ← hh]
      · rw [← show c.cast d x = y by simpa using hy, hcast]

end

/-- A model whose tensor "b" must be found through the second alias. -/
def sampleLoader : Loader Nat where
  names := ["x", "b", "tied"]
  fetch := fun n => .ok n.length
  convert := fun n => .ok (if n = "conv" then some 42 else none)

/-- Casts on numbers tagged by nothing: every number is `float32`. -/
def sampleCasts : Casts Nat := ⟨fun _ => .float32, fun _ x => x⟩

example : let t : LoadTensor := { tensor := "w", aliases := ["a", "b"], tiedNames := ["tied"] }
    t.candidates = ["w", "a"] ++ "b" :: ["tied"] ∧ "b" ∈ sampleLoader.names ∧
    (∀ p ∈ ["w", "a"], p ∉ sampleLoader.names) ∧ t.execute sampleCasts sampleLoader = .ok (some 1) := by
  refine ⟨by decide, by decide, by decide, by decide⟩

example : let t : LoadTensor := { tensor := "w", aliases := ["conv"] }
    (∀ p ∈ t.candidates, p ∉ sampleLoader.names) ∧ t.tensor :: t.aliases = ["w"] ++ "conv" :: [] ∧
    (∀ p ∈ ["w"], sampleLoader.convert p = .ok none) ∧ sampleLoader.convert "conv" = .ok (some 42) := by
  refine ⟨by decide, by decide, by decide, by decide⟩

/-! ## C19 -/

section
variable {T : Type}

theorem dictOf_nodup {V : Type} (es : List (Str × V)) (h : (es.map Prod.fst).Nodup) : dictOf es = es := by
  unfold dictOf
  suffices hs : ∀ (es d : List (Str × V)), ((d ++ es).map Prod.fst).Nodup →
      es.foldl (fun d e => dictSet d e.1 e.2) d = d ++ es by
    simpa using hs es [] (by simpa using h)
  intro es
  induction es with
  | nil => intro d _; simp
  | cons e es ih =>
    intro d hd
    have hne : e.1 ∉ d.map Prod.fst := by
      intro hin
      rw [List.map_append, List.nodup_append] at hd
      exact hd.2.2 _ hin _ (by simp) rfl
    simp only [List.foldl_cons]
    rw [show dictSet d e.1 e.2 = d ++ [e] by
      unfold dictSet
      rw [if_neg (by simpa using hne)]]
    rw [ih (d ++ [e]) (by simpa using hd)]
    simp

theorem dictGet_nodup {V : Type} : ∀ {es : List (Str × V)} {k : Str} {v : V}, (es.map Prod.fst).Nodup → (k, v) ∈ es →
    dictGet es k = some v := by
  intro es
  induction es with
  | nil => intro k v _ h; cases h
  | cons e es ih =>
    intro k v hn hm
    rw [List.map_cons, List.nodup_cons] at hn
    unfold dictGet
    rw [List.find?_cons]
    rcases List.mem_cons.1 hm with rfl | hm
    · simp
    · have : e.1 ≠ k := fun h => hn.1 (List.mem_map.2 ⟨_, hm, h.symm⟩)
      simp only [this, decide_false]
      exact ih hn.2 hm

/-- The load a weight asks for (specification): its names, whether it may be missing, and its own data type if it has one, otherwise
the general one. -/
def wanted (dtype : Option String) (wi : WeightInfo) : LoadTensor where
  tensor := String.ofList wi.name
  aliases := wi.aliases
  tiedNames := wi.tiedNames
  optional := wi.optional
  dtype := if wi.forceDtype = none ∨ wi.forceDtype = some "" then dtype else wi.forceDtype

theorem loadOf_eq (dtype : Option String) (wi : WeightInfo) : loadOf dtype wi = wanted dtype wi := by
  unfold loadOf wanted
  cases h : wi.forceDtype with
  | none => simp
  | some d => by_cases hd : d = "" <;> simp [hd]

/-- What gathering should return (specification): for each pair its own load, in order, absent ones left out. -/
def ownTensors (c : Casts T) (loaders : Ref → Loader T) (dtype : Option String) :
    List (Ref × WeightInfo) → Except Err (List (Ref × T))
  | [] => .ok []
  | (m, wi) :: rest =>
    match LoadTensor.execute c (wanted dtype wi) (loaders m) with
    | .error e => .error e
    | .ok v =>
      match ownTensors c loaders dtype rest with
      | .error e => .error e
      | .ok r => .ok (match v with | some x => (m, x) :: r | none => r)

theorem gatherExecute_zip (ws : List (Ref × WeightInfo)) (vs : List (Option T))
    (hlen : vs.length = ws.length) (hk : (ws.map (fun e => key e.1 e.2)).Nodup) (hm : (ws.map Prod.fst).Nodup) :
    gatherExecute ws ((ws.map (fun e => key e.1 e.2)).zip vs) =
      (ws.zip vs).filterMap (fun p => p.2.map (fun x => (p.1.1, x))) := by
  unfold gatherExecute
  have hd : dictOf (ws.map (fun e => (key e.1 e.2, e.1))) = ws.map (fun e => (key e.1 e.2, e.1)) := by
    apply dictOf_nodup
    simpa [Function.comp_def] using hk
  rw [hd]
  have hkw : (((ws.map (fun e => key e.1 e.2)).zip vs).map Prod.fst).Nodup := by
    rw [List.map_fst_zip (by simp [hlen])]; exact hk
  generalize hkwd : (ws.map (fun e => key e.1 e.2)).zip vs = kw at *
  -- process the pairs from left to right
  suffices hs : ∀ (ws' : List (Ref × WeightInfo)) (vs' : List (Option T)) (d : List (Ref × T)),
      vs'.length = ws'.length → (∀ p ∈ (ws'.map (fun e => key e.1 e.2)).zip vs', p ∈ kw) →
      (d.map Prod.fst ++ ws'.map Prod.fst).Nodup →
      (ws'.map (fun e => (key e.1 e.2, e.1))).foldl (gatherStep kw) d = d ++ (ws'.zip vs').filterMap (fun p => p.2.map (fun x => (p.1.1, x))) by
    have := hs ws vs [] hlen (by rw [hkwd]; exact fun p hp => hp) (by simpa using hm)
    simpa using this
  intro ws'
  induction ws' with
  | nil => intro vs' d h _ _; simp
  | cons w ws' ih =>
    intro vs' d hl hsub hnd
    cases vs' with
    | nil => simp at hl
    | cons v vs' =>
      simp only [List.map_cons, List.foldl_cons, List.zip_cons_cons]
      have hget : dictGet kw (key w.1 w.2) = some v := dictGet_nodup hkw (hsub _ (by simp))
      have hl' : vs'.length = ws'.length := by simpa using hl
      have hsub' : ∀ p ∈ (ws'.map (fun e => key e.1 e.2)).zip vs', p ∈ kw := fun p hp => hsub p (by simp [hp])
      cases v with
      | none =>
        rw [show gatherStep kw d (key w.1 w.2, w.1) = d by simp [gatherStep, hget]]
        simp only [List.filterMap_cons, Option.map_none]
        apply ih vs' d hl' hsub'
        rw [List.map_cons] at hnd
        exact hnd.sublist ((List.Sublist.refl _).append (List.sublist_cons_self _ _))
      | some x =>
        have hne : w.1 ∉ d.map Prod.fst := by
          intro hin
          rw [List.nodup_append] at hnd
          exact hnd.2.2 _ hin _ (by simp) rfl
        simp only [List.filterMap_cons, Option.map_some]
        rw [show gatherStep kw d (key w.1 w.2, w.1) = d ++ [(w.1, x)] by
          unfold gatherStep resultSet
          rw [hget]
          simp only
          rw [if_neg (by simpa using hne)]]
        rw [ih vs' (d ++ [(w.1, x)]) hl' hsub' (by simpa using hnd)]
        simp

/-- Gathering is exact whenever the keys differ. -/
theorem gather_of_keys (c : Casts T) (loaders : Ref → Loader T) (dtype : Option String) (ws : List (Ref × WeightInfo))
    (hk : (ws.map (fun e => key e.1 e.2)).Nodup) (hm : (ws.map Prod.fst).Nodup) :
    (∀ res, ownTensors c loaders dtype ws = .ok res → gather c loaders dtype ws = .ok res) ∧
    (∀ e, ownTensors c loaders dtype ws = .error e → gather c loaders dtype ws = .error e) := by
  have hargs : gatherArguments dtype ws = ws.map (fun e => (key e.1 e.2, (e.1, wanted dtype e.2))) := by
    unfold gatherArguments
    simp only [loadOf_eq]
    apply dictOf_nodup
    simpa [Function.comp_def] using hk
  have key_eq : (match evalArguments c loaders (ws.map (fun e => (key e.1 e.2, (e.1, wanted dtype e.2)))) with
      | .ok kw => ∃ vs : List (Option T), kw = (ws.map (fun e => key e.1 e.2)).zip vs ∧ vs.length = ws.length ∧
          ownTensors c loaders dtype ws = .ok ((ws.zip vs).filterMap (fun p => p.2.map (fun x => (p.1.1, x))))
      | .error e => ownTensors c loaders dtype ws = .error e) := by
    clear hargs hk hm
    induction ws with
    | nil => exact ⟨[], rfl, rfl, rfl⟩
    | cons w ws ih =>
      obtain ⟨m, wi⟩ := w
      simp only [List.map_cons, evalArguments, ownTensors]
      cases he : (wanted dtype wi).execute c (loaders m) with
      | error e => rfl
      | ok v =>
        simp only
        cases hr : evalArguments c loaders (ws.map (fun e => (key e.1 e.2, (e.1, wanted dtype e.2)))) with
        | error e => rw [hr] at ih; simp only at ih ⊢; rw [ih]
        | ok kw =>
          rw [hr] at ih
          obtain ⟨vs, h1, h2, h3⟩ := ih
          refine ⟨v :: vs, by simp [h1], by simp [h2], ?_⟩
          rw [h3]
          cases v <;> simp
  unfold gather
  rw [hargs]
  cases hr : evalArguments c loaders (ws.map (fun e => (key e.1 e.2, (e.1, wanted dtype e.2)))) with
  | error e =>
    rw [hr] at key_eq
    simp only at key_eq ⊢
    rw [key_eq]
    exact ⟨fun res h => (by cases h), fun e' h => (by cases h; rfl)⟩
  | ok kw =>
    rw [hr] at key_eq
    obtain ⟨vs, h1, h2, h3⟩ := key_eq
    simp only
    rw [h3, h1, gatherExecute_zip ws vs h2 hk hm]
    exact ⟨fun res h => (by cases h; rfl), fun e' h => (by cases h)⟩

theorem key_inj {m m' : Ref} {wi wi' : WeightInfo} (h1 : ':' ∉ wi.name) (h2 : ':' ∉ wi'.name)
    (h : key m wi = key m' wi') : m.print = m'.print := by
  unfold key at h
  have hr := congrArg (fun s => splitChar ':' (List.reverse s)) h
  simp only [List.reverse_append, List.reverse_cons, List.append_assoc, List.singleton_append] at hr
  rw [splitChar_append _ (by simpa using h1), splitChar_append _ (by simpa using h2)] at hr
  have hn : wi.name = wi'.name := by simpa using (List.cons.inj hr).1
  rw [hn] at h
  exact List.append_cancel_right h

/-- **C19** Gathering returns, for each model, exactly its own tensor, and leaves out exactly the models without it - as long as
weight names have no ":" and the references are such that no two print alike.  Missing from the full claim: other references,
for which it fails, see `C19_override_lost`. -/
theorem C19_gather_partial (c : Casts T) (loaders : Ref → Loader T) (dtype : Option String) (ws : List (Ref × WeightInfo))
    (hm : (ws.map Prod.fst).Nodup) (hplain : ∀ e ∈ ws, e.1.Plain) (hname : ∀ e ∈ ws, ':' ∉ e.2.name) :
    (∀ res, ownTensors c loaders dtype ws = .ok res → gather c loaders dtype ws = .ok res) ∧
    (∀ e, ownTensors c loaders dtype ws = .error e → gather c loaders dtype ws = .error e) := by
  refine gather_of_keys c loaders dtype ws ?_ hm
  rw [List.nodup_map_iff_inj_on (List.Nodup.of_map _ hm)]
  intro e he e' he' h
  have := C24_never_alike_partial e.1 e'.1 (hplain e he) (hplain e' he') (key_inj (hname e he) (hname e' he') h)
  exact List.inj_on_of_nodup_map hm he he' this

/-- Membership form of the specification. -/
theorem C19_own_tensors (c : Casts T) (loaders : Ref → Loader T) (dtype : Option String) (ws : List (Ref × WeightInfo))
    (res : List (Ref × T)) (h : ownTensors c loaders dtype ws = .ok res) (m : Ref) (x : T) :
    (m, x) ∈ res ↔ ∃ wi, (m, wi) ∈ ws ∧ (wanted dtype wi).execute c (loaders m) = .ok (some x) := by
  induction ws generalizing res with
  | nil => simp only [ownTensors, Except.ok.injEq] at h; subst h; simp
  | cons w ws ih =>
    obtain ⟨m', wi⟩ := w
    simp only [ownTensors] at h
    cases he : (wanted dtype wi).execute c (loaders m') with
    | error e => rw [he] at h; cases h
    | ok v =>
      rw [he] at h
      simp only at h
      cases hr : ownTensors c loaders dtype ws with
      | error e => rw [hr] at h; cases h
      | ok r =>
        rw [hr] at h
        simp only [Except.ok.injEq] at h
        have := ih r hr
        subst h
        constructor
        · intro hmem
          cases v with
          | none =>
            obtain ⟨wi', a, b⟩ := this.1 hmem
            exact ⟨wi', by simp [a], b⟩
          | some y =>
            rcases List.mem_cons.1 hmem with heq | hmem
            · cases heq
              exact ⟨wi, by simp, he⟩
            · obtain ⟨wi', a, b⟩ := this.1 hmem
              exact ⟨wi', by simp [a], b⟩
        · rintro ⟨wi', a, b⟩
          rcases List.mem_cons.1 a with heq | a
          · cases heq
            rw [he] at b
            cases b
            simp
          · have hin := this.2 ⟨wi', a, b⟩
            cases v with
            | none => exact hin
            | some y => exact List.mem_cons_of_mem _ hin

/-- **C19** The condition is needed: of two references that differ only in the overridden architecture, one is lost. -/
theorem C19_override_lost : ∃ (ws : List (Ref × WeightInfo)) (res : List (Ref × Nat)), (ws.map Prod.fst).Nodup ∧
    ownTensors sampleCasts (fun _ => sampleLoader) none ws = .ok res ∧ res.length = 2 ∧
    ∃ r, gather sampleCasts (fun _ => sampleLoader) none ws = .ok r ∧ r.length = 1 := by
  refine ⟨[(⟨⟨"a".toList, none⟩, none, none⟩, { name := "x".toList }),
    (⟨⟨"a".toList, none⟩, none, some "X".toList⟩, { name := "x".toList })], ?_⟩
  refine ⟨_, by decide, rfl, rfl, _, rfl, rfl⟩

end

/-- Three models, one lacking the (optional) weight. -/
def sampleWs : List (Ref × WeightInfo) :=
  [(⟨⟨"a".toList, none⟩, none, none⟩, { name := "x".toList }),
   (⟨⟨"b".toList, some "rev".toList⟩, none, none⟩, { name := "y".toList, optional := true }),
   (⟨⟨"a".toList, none⟩, some ⟨"l".toList, none⟩, none⟩, { name := "tied".toList })]

example : (sampleWs.map Prod.fst).Nodup ∧ (∀ e ∈ sampleWs, ':' ∉ e.2.name) ∧
    ∃ res, ownTensors sampleCasts (fun _ => sampleLoader) none sampleWs = .ok res ∧ res.length = 2 :=
  ⟨by decide, by decide, _, rfl, rfl⟩

example : ∀ e ∈ sampleWs, e.1.Plain := by
  intro e he
  simp only [sampleWs, List.mem_cons, List.not_mem_nil, or_false] at he
  rcases he with rfl | rfl | rfl
  · exact ⟨⟨by unfold ModelRef.NoSep; decide, (by rintro r hr; cases hr)⟩, (by rintro l hl; cases hl), rfl⟩
  · exact ⟨⟨by unfold ModelRef.NoSep; decide, (by rintro r hr; cases hr; unfold ModelRef.NoSep; decide)⟩,
      (by rintro l hl; cases hl), rfl⟩
  · refine ⟨⟨by unfold ModelRef.NoSep; decide, (by rintro r hr; cases hr)⟩, ?_, rfl⟩
    rintro l hl; cases hl
    exact ⟨by unfold ModelRef.NoSep; decide, (by rintro r hr; cases hr)⟩

end Verif.LoadTask
