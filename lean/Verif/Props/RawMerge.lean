import Verif.Model.RawMerge
import Verif.Props.ModelRef
import Verif.Props.Embed
import Mathlib.Data.Rat.Floor

/-! # C56, C73: merging raw checkpoints -/

set_option linter.unusedSectionVars false

namespace Verif.Raw

open Verif.ModelRef (Str Ref NoSep validate C24_serialize)
open Verif.Config (Scalar Setting Params evaluateSetting)
open Verif.Tok (mapM_ok mapM_total forall₂_left forall₂_right map_ok)

variable {K : Type} [Field K] [LinearOrder K] [FloorRing K] {T : Type}

/-! ## Specification -/

/-- The files that take part: the models and the base model. -/
def Takes (c : Config K) (p : Str) : Prop := (∃ m ∈ c.models, m.model = p) ∨ c.baseModel = some p

/-- The file at `p` has a tensor named `n`. -/
def Has (disk : Str → File T) (p n : Str) : Prop := ∃ x, (n, x) ∈ disk p

/-- `order` lists, without repetition, the tensors of the models (not of the base model). -/
def Lists (disk : Str → File T) (c : Config K) (order : List Str) : Prop :=
  order.Nodup ∧ ∀ n, n ∈ order ↔ ∃ m ∈ c.models, Has disk m.model n

/-! ## Lemmas -/

theorem mem_names {f : File T} {n : Str} : n ∈ names f ↔ ∃ x, (n, x) ∈ f := by
  unfold names
  simp

theorem mem_addKey {l : List Str} {k x : Str} : x ∈ addKey l k ↔ x ∈ l ∨ x = k := by
  unfold addKey
  split
  · constructor
    · exact Or.inl
    · rintro (h | rfl)
      · exact h
      · assumption
  · simp

theorem nodup_addKey {l : List Str} {k : Str} (h : l.Nodup) : (addKey l k).Nodup := by
  unfold addKey
  split
  · exact h
  · rename_i hk
    rw [List.nodup_append]
    refine ⟨h, by simp, ?_⟩
    intro a ha b hb
    simp only [List.mem_singleton] at hb
    subst hb
    rintro rfl
    exact hk ha

theorem foldl_addKey (ks l : List Str) (h : l.Nodup) : (ks.foldl addKey l).Nodup ∧ ∀ x, x ∈ ks.foldl addKey l ↔ x ∈ l ∨ x ∈ ks := by
  induction ks generalizing l with
  | nil => simp [h]
  | cons k ks ih =>
    obtain ⟨h1, h2⟩ := ih (addKey l k) (nodup_addKey h)
    refine ⟨h1, fun x => ?_⟩
    rw [List.foldl_cons, h2, mem_addKey, List.mem_cons]
    tauto

theorem inputPaths_spec (c : Config K) : (inputPaths c).Nodup ∧ ∀ p, p ∈ inputPaths c ↔ Takes c p := by
  obtain ⟨h1, h2⟩ := foldl_addKey (c.models.map (·.model)) [] List.nodup_nil
  unfold inputPaths Takes
  cases c.baseModel with
  | none => simpa using ⟨h1, fun p => by rw [h2]; simp⟩
  | some b =>
    refine ⟨nodup_addKey h1, fun p => ?_⟩
    simp only
    rw [mem_addKey, h2]
    simp [eq_comm]

theorem hasTensor_lt (disk : Str → File T) (c : Config K) (n : Str) :
    (hasTensor disk c n).length < (inputPaths c).length ↔ ∃ p, Takes c p ∧ ¬ Has disk p n := by
  have hle : (hasTensor disk c n).length ≤ (inputPaths c).length := List.length_filter_le ..
  have := List.length_filter_eq_length_iff (l := inputPaths c) (p := fun p => decide (n ∈ names (disk p)))
  constructor
  · intro h
    by_contra hno
    push Not at hno
    have : (hasTensor disk c n).length = (inputPaths c).length := by
      unfold hasTensor
      rw [this]
      intro p hp
      have := hno p ((inputPaths_spec c).2 p |>.1 hp)
      simpa [mem_names, Has] using this
    omega
  · rintro ⟨p, hp, hn⟩
    by_contra hlt
    have heq : (hasTensor disk c n).length = (inputPaths c).length := by omega
    have := this.1 heq p (((inputPaths_spec c).2 p).2 hp)
    simp only [decide_eq_true_eq, mem_names] at this
    exact hn this

theorem planTensor_ok {disk : Str → File T} {c : Config K} {gdefs tdefs : List (ParamDef K)} {union inter : Bool} {n : Str}
    {r : Option (Job K)} (h : planTensor disk c gdefs tdefs union inter n = .ok r) :
    (r = none ∧ inter = true ∧ ∃ p, Takes c p ∧ ¬ Has disk p n) ∨
    (∃ j, r = some j ∧ j.tensor = n ∧ j.inputs = inputPaths c ∧ paramDicts c gdefs tdefs n = .ok (j.params, j.tensorParams) ∧
      ((∀ p, Takes c p → Has disk p n) ∨ (inter = false ∧ union = true))) := by
  unfold planTensor at h
  split at h
  · rename_i h1
    cases h
    exact Or.inl ⟨rfl, h1.2, (hasTensor_lt disk c n).1 h1.1⟩
  · rename_i h1
    split at h
    · cases h
    · rename_i h2
      cases hp : paramDicts c gdefs tdefs n with
      | error e => rw [hp] at h; cases h
      | ok gt =>
        rw [hp] at h
        cases h
        refine Or.inr ⟨_, rfl, rfl, rfl, rfl, ?_⟩
        by_cases hlt : (hasTensor disk c n).length < (inputPaths c).length
        · right
          have h3 : inter ≠ true := fun hh => h1 ⟨hlt, hh⟩
          have h4 : union ≠ false := fun hh => h2 ⟨hlt, hh⟩
          exact ⟨by simpa using h3, by simpa using h4⟩
        · left
          intro p hp
          by_contra hn
          exact hlt ((hasTensor_lt disk c n).2 ⟨p, hp, hn⟩)

theorem getTensor_ok {f : File T} {n : Str} {x : T} (h : getTensor f n = .ok x) : (n, x) ∈ f := by
  unfold getTensor at h
  cases hf : f.find? (fun e => decide (e.1 = n)) with
  | none => rw [hf] at h; cases h
  | some e =>
    rw [hf] at h
    cases h
    have h1 := List.find?_some hf
    have h2 := List.mem_of_find?_eq_some hf
    simp only [decide_eq_true_eq] at h1
    rw [← h1]
    exact h2

theorem getTensor_total {f : File T} {n : Str} (h : ∃ x, (n, x) ∈ f) : ∃ x, getTensor f n = .ok x := by
  unfold getTensor
  cases hf : f.find? (fun e => decide (e.1 = n)) with
  | none =>
    obtain ⟨x, hx⟩ := h
    have := List.find?_eq_none.1 hf _ hx
    simp at this
  | some e => exact ⟨_, rfl⟩

theorem keyOf_plain {p : Str} (h : NoSep p) : keyOf p = .ok ⟨⟨p, none⟩, none, none⟩ := by
  unfold keyOf
  rw [C24_serialize _ (Or.inl ⟨⟨h, by simp⟩, by simp, rfl⟩)]

theorem run_ok {disk : Str → File T} {c : Config K} {gdefs tdefs : List (ParamDef K)} {union inter : Bool} {order : List Str}
    {method : Job K → List (Ref × T) → Except Err T} {out : List (Str × T)}
    (h : run disk c gdefs tdefs union inter order method = .ok out) :
    ∃ js : List (Option (Job K)), List.Forall₂ (fun n r => planTensor disk c gdefs tdefs union inter n = .ok r) order js ∧
      List.Forall₂ (fun j o => runJob disk method j = .ok o) (js.filterMap id) out := by
  unfold run plan at h
  cases hm : order.mapM (planTensor disk c gdefs tdefs union inter) with
  | error e => rw [hm] at h; cases h
  | ok js =>
    rw [hm] at h
    exact ⟨js, (mapM_ok _ _ _).1 hm, (mapM_ok _ _ _).1 h⟩

/-- A job that was executed had all its inputs. -/
theorem runJob_ok {disk : Str → File T} {method : Job K → List (Ref × T) → Except Err T} {j : Job K} {o : Str × T}
    (h : runJob disk method j = .ok o) :
    o.1 = j.tensor ∧ ∃ xs, List.Forall₂ (fun p x => (j.tensor, x.2) ∈ disk p ∧ keyOf p = .ok x.1) j.inputs xs ∧ method j xs = .ok o.2 := by
  unfold runJob at h
  cases hm : j.inputs.mapM (loadInput disk j.tensor) with
  | error e => rw [hm] at h; cases h
  | ok xs =>
    rw [hm] at h
    obtain ⟨y, hy, rfl⟩ := (map_ok _ _ _).1 h
    refine ⟨rfl, xs, ((mapM_ok _ _ _).1 hm).imp ?_, hy⟩
    intro p x hx
    unfold loadInput at hx
    cases hg : getTensor (disk p) j.tensor with
    | error e => rw [hg] at hx; cases hx
    | ok t =>
      rw [hg] at hx
      cases hk : keyOf p with
      | error e => rw [hk] at hx; cases hx
      | ok r =>
        rw [hk] at hx
        cases hx
        exact ⟨getTensor_ok hg, rfl⟩

theorem filterMap_names {disk : Str → File T} {c : Config K} {gdefs tdefs : List (ParamDef K)} {union inter : Bool} {order : List Str}
    {js : List (Option (Job K))} (h : List.Forall₂ (fun n r => planTensor disk c gdefs tdefs union inter n = .ok r) order js) :
    ((js.filterMap id).map (·.tensor)).Sublist order := by
  induction h with
  | nil => simp
  | cons h1 _ ih =>
    rcases planTensor_ok h1 with ⟨rfl, _⟩ | ⟨j, rfl, rfl, _⟩
    · simpa using ih.cons _
    · simpa using ih

theorem forall₂_names {disk : Str → File T} {method : Job K → List (Ref × T) → Except Err T} {js : List (Job K)} {out : List (Str × T)}
    (h : List.Forall₂ (fun j o => runJob disk method j = .ok o) js out) : out.map Prod.fst = js.map (·.tensor) := by
  induction h with
  | nil => rfl
  | cons h1 _ ih => simp [(runJob_ok h1).1, ih]

/-! ## C56 -/

/-- **C56** Whatever the mode: if the command succeeds, it has written each tensor that all files (models and base model) have, once, and no
other. -/
theorem C56_names (disk : Str → File T) (c : Config K) (gdefs tdefs : List (ParamDef K)) (union inter : Bool) (order : List Str)
    (method : Job K → List (Ref × T) → Except Err T) (out : List (Str × T)) (hm : c.models ≠ []) (ho : Lists disk c order)
    (h : run disk c gdefs tdefs union inter order method = .ok out) :
    (out.map Prod.fst).Nodup ∧ ∀ n, n ∈ out.map Prod.fst ↔ ∀ p, Takes c p → Has disk p n := by
  obtain ⟨js, h1, h2⟩ := run_ok h
  have hn := forall₂_names h2
  rw [hn]
  refine ⟨(filterMap_names h1).nodup ho.1, fun n => ⟨?_, ?_⟩⟩
  · intro hnm
    obtain ⟨j, hj, rfl⟩ := List.mem_map.1 hnm
    obtain ⟨o, _, hjo⟩ := forall₂_left h2 j hj
    obtain ⟨_, xs, hxs, _⟩ := runJob_ok hjo
    have hj' : some j ∈ js := by simpa using hj
    obtain ⟨n, _, hpl⟩ := forall₂_right h1 _ hj'
    rcases planTensor_ok hpl with ⟨h0, _⟩ | ⟨j', h0, _, hin, _⟩
    · cases h0
    · cases h0
      intro p hp
      rw [hin] at hxs
      obtain ⟨x, _, hx, _⟩ := forall₂_left hxs p (((inputPaths_spec c).2 p).2 hp)
      exact ⟨_, hx⟩
  · intro hall
    obtain ⟨m, hmem⟩ := List.exists_mem_of_ne_nil _ hm
    have hno : n ∈ order := (ho.2 n).2 ⟨m, hmem, hall _ (Or.inl ⟨m, hmem, rfl⟩)⟩
    obtain ⟨r, hr, hpl⟩ := forall₂_left h1 n hno
    rcases planTensor_ok hpl with ⟨_, _, p, hp, hnp⟩ | ⟨j, rfl, rfl, _⟩
    · exact absurd (hall p hp) hnp
    · exact List.mem_map.2 ⟨j, by simpa using hr, rfl⟩

/-- **C56** Outside intersection mode a tensor of some model that another file lacks makes the command fail: in the strict mode as intended,
but in *union mode too*, so that the union is never written. -/
theorem C56_union_fails (disk : Str → File T) (c : Config K) (gdefs tdefs : List (ParamDef K)) (union : Bool) (order : List Str)
    (method : Job K → List (Ref × T) → Except Err T) (ho : Lists disk c order) (m : InModel K) (hm : m ∈ c.models) (n p : Str)
    (hn : Has disk m.model n) (hp : Takes c p) (hno : ¬ Has disk p n) :
    ∃ e, run disk c gdefs tdefs union false order method = .error e := by
  cases hr : run disk c gdefs tdefs union false order method with
  | error e => exact ⟨e, rfl⟩
  | ok out =>
    exfalso
    obtain ⟨js, h1, h2⟩ := run_ok hr
    obtain ⟨r, hr', hpl⟩ := forall₂_left h1 n ((ho.2 n).2 ⟨m, hm, hn⟩)
    rcases planTensor_ok hpl with ⟨_, h0, _⟩ | ⟨j, rfl, rfl, hin, _⟩
    · cases h0
    · obtain ⟨o, _, hjo⟩ := forall₂_left h2 j (by simpa using hr')
      obtain ⟨_, xs, hxs, _⟩ := runJob_ok hjo
      rw [hin] at hxs
      obtain ⟨x, _, hx, _⟩ := forall₂_left hxs p (((inputPaths_spec c).2 p).2 hp)
      exact hno ⟨_, hx⟩

/-- **C56** What is written: the merge method applied to that tensor of each file, once per file, with the parameters of C73. -/
theorem C56_values (disk : Str → File T) (c : Config K) (gdefs tdefs : List (ParamDef K)) (union inter : Bool) (order : List Str)
    (method : Job K → List (Ref × T) → Except Err T) (out : List (Str × T)) (hplain : ∀ p, Takes c p → NoSep p)
    (h : run disk c gdefs tdefs union inter order method = .ok out) (n : Str) (y : T) (hy : (n, y) ∈ out) :
    ∃ (j : Job K) (xs : List (Str × T)), (xs.map Prod.fst).Nodup ∧ (∀ p, p ∈ xs.map Prod.fst ↔ Takes c p) ∧
      (∀ e ∈ xs, (n, e.2) ∈ disk e.1) ∧ j.tensor = n ∧ paramDicts c gdefs tdefs n = .ok (j.params, j.tensorParams) ∧
      method j (xs.map (fun e => (⟨⟨e.1, none⟩, none, none⟩, e.2))) = .ok y := by
  obtain ⟨js, h1, h2⟩ := run_ok h
  obtain ⟨j, hj, hjo⟩ := forall₂_right h2 _ hy
  obtain ⟨hn, xs, hxs, hmeth⟩ := runJob_ok hjo
  simp only at hn hmeth
  have hj' : some j ∈ js := by simpa using hj
  obtain ⟨n', _, hpl⟩ := forall₂_right h1 _ hj'
  rcases planTensor_ok hpl with ⟨h0, _⟩ | ⟨j', h0, ht, hin, hpar, _⟩
  · cases h0
  · cases h0
    subst ht
    subst hn
    have key : ∃ ys : List (Str × T), ys.map Prod.fst = j.inputs ∧ (∀ e ∈ ys, (j.tensor, e.2) ∈ disk e.1) ∧
        ys.map (fun e => ((⟨⟨e.1, none⟩, none, none⟩ : Ref), e.2)) = xs := by
      have hpl' : ∀ p ∈ j.inputs, NoSep p := by
        intro p hp
        rw [hin] at hp
        exact hplain p (((inputPaths_spec c).2 p).1 hp)
      clear hmeth hin hj hj' hjo
      generalize j.inputs = ps at hxs hpl'
      induction hxs with
      | nil => exact ⟨[], rfl, by simp, rfl⟩
      | @cons p x ps xs hx _ ih =>
        obtain ⟨ys, e1, e2, e3⟩ := ih (fun q hq => hpl' q (List.mem_cons_of_mem _ hq))
        refine ⟨(p, x.2) :: ys, by simp [e1], ?_, ?_⟩
        · intro e he
          rcases List.mem_cons.1 he with rfl | he
          · exact hx.1
          · exact e2 e he
        · have := hx.2
          rw [keyOf_plain (hpl' p List.mem_cons_self)] at this
          simp only [Except.ok.injEq] at this
          simp [e3, this]
    obtain ⟨ys, e1, e2, e3⟩ := key
    refine ⟨j, ys, by rw [e1, hin]; exact (inputPaths_spec c).1, ?_, e2, rfl, hpar, by rw [e3]; exact hmeth⟩
    intro p
    rw [e1, hin]
    exact (inputPaths_spec c).2 p

/-- **C56** When the command succeeds: in intersection mode always, otherwise if every file has all tensors of the models; provided the
parameters can be determined, the method does not raise and no path contains "+" or "@". -/
theorem C56_succeeds (disk : Str → File T) (c : Config K) (gdefs tdefs : List (ParamDef K)) (union inter : Bool) (order : List Str)
    (method : Job K → List (Ref × T) → Except Err T) (hplain : ∀ p, Takes c p → NoSep p)
    (hparams : ∀ n ∈ order, (∀ p, Takes c p → Has disk p n) → ∃ r, paramDicts c gdefs tdefs n = .ok r)
    (hmethod : ∀ j xs, ∃ y, method j xs = .ok y) (hmode : inter = true ∨ ∀ n ∈ order, ∀ p, Takes c p → Has disk p n) :
    ∃ out, run disk c gdefs tdefs union inter order method = .ok out := by
  have hplan : ∀ n ∈ order, ∃ r, planTensor disk c gdefs tdefs union inter n = .ok r ∧
      ∀ j, r = some j → j.inputs = inputPaths c ∧ ∀ p, Takes c p → Has disk p j.tensor := by
    intro n hn
    unfold planTensor
    by_cases hall : ∀ p, Takes c p → Has disk p n
    · have hlt : ¬ (hasTensor disk c n).length < (inputPaths c).length := by
        rw [hasTensor_lt]
        rintro ⟨p, hp, hnp⟩
        exact hnp (hall p hp)
      obtain ⟨r, hr⟩ := hparams n hn hall
      rw [if_neg (fun h => hlt h.1), if_neg (fun h => hlt h.1), hr]
      refine ⟨_, rfl, ?_⟩
      intro j hj
      cases hj
      exact ⟨rfl, hall⟩
    · have hlt : (hasTensor disk c n).length < (inputPaths c).length := by
        rw [hasTensor_lt]
        push Not at hall
        exact hall
      rcases hmode with hi | ha
      · rw [if_pos ⟨hlt, hi⟩]
        exact ⟨none, rfl, by simp⟩
      · exact absurd (ha n hn) hall
  obtain ⟨js, hjs⟩ := mapM_total (planTensor disk c gdefs tdefs union inter) order (fun n hn => by
    obtain ⟨r, hr, _⟩ := hplan n hn
    exact ⟨r, hr⟩)
  have hF := (mapM_ok _ _ _).1 hjs
  have : ∀ j ∈ js.filterMap id, ∃ o, runJob disk method j = .ok o := by
    intro j hj
    have hj' : some j ∈ js := by simpa using hj
    obtain ⟨n, hn, hpl⟩ := forall₂_right hF _ hj'
    obtain ⟨r, hr, hr2⟩ := hplan n hn
    rw [hpl] at hr
    cases hr
    obtain ⟨hin, hall⟩ := hr2 j rfl
    obtain ⟨xs, hxs⟩ := mapM_total (loadInput disk j.tensor) j.inputs (by
      intro p hp
      rw [hin] at hp
      have hp' := ((inputPaths_spec c).2 p).1 hp
      obtain ⟨x, hx⟩ := getTensor_total (hall p hp')
      exact ⟨_, by unfold loadInput; rw [hx, keyOf_plain (hplain p hp')]⟩)
    obtain ⟨y, hy⟩ := hmethod j xs
    exact ⟨(j.tensor, y), by unfold runJob; rw [hxs]; simp only [hy]; rfl⟩
  obtain ⟨out, hout⟩ := mapM_total (runJob disk method) (js.filterMap id) this
  exact ⟨out, by unfold run plan; rw [hjs]; exact hout⟩

/-- The names of the files of an example. -/
def exDisk : Str → File Nat := fun p =>
  if p = ['a'] then [(['x'], 1), (['y'], 2)] else if p = ['b'] then [(['y'], 5), (['x'], 7)] else [(['x'], 10), (['y'], 20), (['z'], 30)]

/-- A merge method that adds up. -/
def exSum : Job ℚ → List (Ref × Nat) → Except Err Nat := fun _ xs => .ok ((xs.map Prod.snd).sum)

/-- **C56, disagreement** A tensor that only the base model has is dropped without a word, also in the strict mode. -/
theorem C56_base_extra_ignored : ∃ (c : Config ℚ) (out : List (Str × Nat)), Lists exDisk c [['x'], ['y']] ∧ c.baseModel = some ['c'] ∧
    Has exDisk ['c'] ['z'] ∧ run exDisk c [] [] false false [['x'], ['y']] exSum = .ok out ∧ ['z'] ∉ out.map Prod.fst := by
  refine ⟨⟨[⟨['a'], none⟩, ⟨['b'], none⟩], none, some ['c']⟩, [(['x'], 18), (['y'], 27)], ?_, rfl, ⟨30, by decide⟩, by rfl, by decide⟩
  refine ⟨by decide, fun n => ?_⟩
  simp only [List.mem_cons, List.not_mem_nil, or_false, exists_eq_or_imp, exists_eq_left]
  have h1 : exDisk ['a'] = [(['x'], 1), (['y'], 2)] := rfl
  have h2 : exDisk ['b'] = [(['y'], 5), (['x'], 7)] := by decide
  unfold Has
  rw [h1, h2]
  simp only [List.mem_cons, Prod.mk.injEq, List.not_mem_nil, or_false]
  constructor
  · rintro (rfl | rfl)
    · exact Or.inl ⟨1, Or.inl ⟨rfl, rfl⟩⟩
    · exact Or.inl ⟨2, Or.inr ⟨rfl, rfl⟩⟩
  · rintro (⟨_, ⟨h, _⟩ | ⟨h, _⟩⟩ | ⟨_, ⟨h, _⟩ | ⟨h, _⟩⟩) <;> simp [h]

/-- **C56, disagreement** A path with a "+" reaches the merge method as a model with an adapter, another key than the one used for the base
model and the parameters. -/
theorem C56_separator (a b : Str) (ha : NoSep a) (hb : NoSep b) (hq : '"' ∉ a ++ b) (hs : ' ' ∉ a ++ b) :
    keyOf (a ++ '+' :: b) = .ok ⟨⟨a, none⟩, some ⟨b, none⟩, none⟩ := by
  have h1 : (⟨⟨a ++ '+' :: b, none⟩, none, none⟩ : Ref).print = (⟨⟨a, none⟩, some ⟨b, none⟩, none⟩ : Ref).print := rfl
  have h2 := Verif.ModelRef.C24_parse_print ⟨⟨a, none⟩, some ⟨b, none⟩, none⟩ ⟨⟨ha, by simp⟩, by simp [Verif.ModelRef.ModelPath.Plain, hb], rfl⟩
  have h3 : (⟨⟨a ++ '+' :: b, none⟩, none, none⟩ : Ref).serialize = .str (a ++ '+' :: b) := by
    unfold Verif.ModelRef.Ref.serialize
    rw [if_neg (by simp), if_neg]
    · rfl
    · have : (⟨⟨a ++ '+' :: b, none⟩, none, none⟩ : Ref).print = a ++ '+' :: b := rfl
      rw [this]
      simp only [List.mem_append, List.mem_cons, not_or] at hq hs ⊢
      exact ⟨⟨hq.1, by decide, hq.2⟩, ⟨hs.1, by decide, hs.2⟩⟩
  unfold keyOf
  rw [h3]
  show (match Verif.ModelRef.parse (a ++ '+' :: b) with
    | .ok r => Except.ok r
    | .error _ => Except.error Err.badReference) = _
  have : a ++ '+' :: b = (⟨⟨a, none⟩, some ⟨b, none⟩, none⟩ : Ref).print := rfl
  rw [this, h2]

/-- Non-vacuity of `C56_names`, `C56_values`, `C56_succeeds`: an intersection. -/
example : run exDisk (⟨[⟨['a'], none⟩, ⟨['c'], none⟩], none, some ['a']⟩ : Config ℚ) [] [] false true [['z'], ['x'], ['y']] exSum =
    .ok [(['x'], 11), (['y'], 22)] := by rfl

/-! ## C73 -/

/-- Specification: the value a setting gives for a tensor. -/
def Gives (tensor : Str) (p : Params K) (name : Str) (v : Scalar K) : Prop :=
  ∃ s, p.get name = some s ∧ evaluateSetting (some tensor) s (0 : K) = .ok (some v)

/-- **C73** Parameters of the method as a whole: the configured value if there is one for the tensor, else the default; a required
parameter is never left out. -/
theorem C73_global (c : Config K) (gdefs tdefs : List (ParamDef K)) (tensor : Str) (g : List (Str × Option (Scalar K)))
    (t : List ((Str × Str) × Option (Scalar K))) (h : paramDicts c gdefs tdefs tensor = .ok (g, t)) :
    g.map Prod.fst = gdefs.map (·.name) ∧
    ∀ e ∈ g, ∃ d ∈ gdefs, d.name = e.1 ∧
      ((∃ v, Gives tensor (c.parameters.getD []) d.name v ∧ e.2 = some v) ∨
        ((∀ v, ¬ Gives tensor (c.parameters.getD []) d.name v) ∧ d.required = false ∧ e.2 = d.default)) := by
  unfold paramDicts at h
  cases hg : gdefs.mapM (fun d => (globalParam c tensor d).map (fun v => (d.name, v))) with
  | error e => rw [hg] at h; cases h
  | ok g' =>
    rw [hg] at h
    simp only at h
    split at h
    · cases h
    · cases h
      have hF := (mapM_ok _ _ _).1 hg
      refine ⟨?_, ?_⟩
      · clear hg
        induction hF with
        | nil => rfl
        | cons h1 _ ih =>
          obtain ⟨v, _, rfl⟩ := (map_ok _ _ _).1 h1
          simp [ih]
      · intro e he
        obtain ⟨d, hd, h1⟩ := forall₂_right hF e he
        obtain ⟨v, hv, rfl⟩ := (map_ok _ _ _).1 h1
        refine ⟨d, hd, rfl, ?_⟩
        unfold globalParam at hv
        cases hs : (c.parameters.getD []).get d.name with
        | none =>
          rw [hs] at hv
          simp only at hv
          right
          cases hreq : d.required with
          | true => rw [hreq] at hv; cases hv
          | false =>
            rw [hreq] at hv
            cases hv
            refine ⟨?_, rfl, rfl⟩
            rintro v ⟨s, hs', _⟩
            rw [hs] at hs'
            cases hs'
        | some s =>
          rw [hs] at hv
          simp only at hv
          cases hev : evaluateSetting (some tensor) s (0 : K) with
          | error e => rw [hev] at hv; cases hv
          | ok r =>
            rw [hev] at hv
            cases r with
            | some x => cases hv; exact Or.inl ⟨x, ⟨s, hs, hev⟩, rfl⟩
            | none =>
              simp only [Except.mapError] at hv
              right
              cases hreq : d.required with
              | true => rw [hreq] at hv; cases hv
              | false =>
                rw [hreq] at hv
                cases hv
                refine ⟨?_, rfl, rfl⟩
                rintro v ⟨s', hs', he'⟩
                rw [hs] at hs'
                cases hs'
                rw [hev] at he'
                cases he'

theorem eval_empty (tensor : Str) : evaluateSetting (some tensor) (.list []) (0 : K) = .error .index := by
  simp [evaluateSetting, Verif.Config.allScalars, Verif.Config.evalScalars, Verif.Config.allNums, Verif.Config.gradient,
    Verif.Config.pyIndex, Verif.Config.trunc]

theorem tensorParam_of_ok {c : Config K} {gdefs tdefs : List (ParamDef K)} {tensor : Str} {g : List (Str × Option (Scalar K))}
    {t : List ((Str × Str) × Option (Scalar K))} (h : paramDicts c gdefs tdefs tensor = .ok (g, t)) (d : ParamDef K) (hd : d ∈ tdefs)
    (m : InModel K) (hm : m ∈ c.models) : ∃ v, tensorParam c tensor d m = .ok v ∧ ((m.model, d.name), v) ∈ t := by
  unfold paramDicts at h
  split at h
  · cases h
  · split at h
    · cases h
    · rename_i hg _ t' ht
      cases h
      obtain ⟨e, he, h1⟩ := forall₂_left ((mapM_ok _ _ _).1 ht) (d, m)
        (List.mem_flatMap.2 ⟨d, hd, List.mem_map.2 ⟨m, hm, rfl⟩⟩)
      obtain ⟨v, hv, rfl⟩ := (map_ok _ _ _).1 h1
      exact ⟨v, hv, he⟩

/-- **C73, refuted** A model that does not set a per-model parameter makes the merge fail, even if the parameter is set for the whole merge or
has a default value. -/
theorem C73_unset_fails (c : Config K) (gdefs tdefs : List (ParamDef K)) (tensor : Str) (d : ParamDef K) (hd : d ∈ tdefs)
    (m : InModel K) (hm : m ∈ c.models) (hunset : (m.parameters.getD []).get d.name = none) :
    ∃ e, paramDicts c gdefs tdefs tensor = .error e := by
  cases h : paramDicts c gdefs tdefs tensor with
  | error e => exact ⟨e, rfl⟩
  | ok r =>
    exfalso
    obtain ⟨v, hv, _⟩ := tensorParam_of_ok h d hd m hm
    unfold tensorParam at hv
    cases hp : m.parameters with
    | none => rw [hp] at hv; cases hv
    | some ps =>
      rw [hp] at hv hunset
      simp only [Option.getD_some] at hunset
      simp only [hunset, Option.getD_none, eval_empty] at hv
      cases hv

/-- **C73, refuted** A value of zero for a model is not used: a value for the whole merge wins, and without one the merge fails. -/
theorem C73_zero_ignored (c : Config K) (tensor : Str) (d : ParamDef K) (m : InModel K) (ps : Params K) (hps : m.parameters = some ps)
    (hzero : Gives tensor ps d.name (.num 0)) :
    ((c.parameters.getD []).get d.name = none → ∃ e, tensorParam c tensor d m = .error e) ∧
    (∀ v, Gives tensor (c.parameters.getD []) d.name (.num v) → v ≠ 0 → tensorParam c tensor d m = .ok (some (.num v))) := by
  obtain ⟨s, hs, he⟩ := hzero
  constructor
  · intro hg
    unfold tensorParam
    rw [hps]
    simp only [hs, Option.getD_some, he, hg, Option.getD_none, eval_empty]
    exact ⟨.setting .index, by simp [truthyVal]⟩
  · rintro v ⟨s', hs', he'⟩ hv
    unfold tensorParam
    rw [hps]
    simp only [hs, Option.getD_some, he, hs', he']
    simp [truthyVal, hv]

/-- **C73** What holds: a value of a model other than zero (or an empty string) is the one used for that model. -/
theorem C73_own_partial (c : Config K) (gdefs tdefs : List (ParamDef K)) (tensor : Str) (g : List (Str × Option (Scalar K)))
    (t : List ((Str × Str) × Option (Scalar K))) (h : paramDicts c gdefs tdefs tensor = .ok (g, t)) (d : ParamDef K) (hd : d ∈ tdefs)
    (m : InModel K) (hm : m ∈ c.models) (v : K) (hv : v ≠ 0) (hown : Gives tensor (m.parameters.getD []) d.name (.num v)) :
    ((m.model, d.name), some (.num v)) ∈ t := by
  obtain ⟨w, hw, hmem⟩ := tensorParam_of_ok h d hd m hm
  obtain ⟨s, hs, he⟩ := hown
  unfold tensorParam at hw
  cases hp : m.parameters with
  | none => rw [hp] at hw; cases hw
  | some ps =>
    rw [hp] at hw hs
    simp only [Option.getD_some] at hs
    simp only [hs, Option.getD_some, he, truthyVal, hv, ne_eq, not_false_eq_true, decide_true, if_true] at hw
    cases hw
    exact hmem

/-- Two models with weights. -/
example : paramDicts (⟨[⟨['a'], some [(['w'], .scalar (.num 2))]⟩, ⟨['b'], some [(['w'], .scalar (.num 3))]⟩], none, none⟩ : Config ℚ)
    [⟨['n'], false, some (.num 1)⟩] [⟨['w'], true, none⟩] ['x'] =
    .ok ([(['n'], some (.num 1))], [((['a'], ['w']), some (.num 2)), ((['b'], ['w']), some (.num 3))]) := by rfl

end Verif.Raw
