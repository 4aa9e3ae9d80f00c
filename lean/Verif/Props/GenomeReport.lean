import Verif.Model.GenomeReport
import Verif.Props.Genome

/-! # C132: the numbers of a genotype by name -/

namespace Verif.Genome

open Verif.ModelRef (Str Ref)
open Verif.Convert (setKey)

/-! ## Specification -/

/-- What follows the last slash of a path. -/
structure LastPart (path base : Str) : Prop where
  split : ∃ dir, path = dir ++ base ∧ (dir = [] ∨ dir.getLast? = some '/')
  noSlash : '/' ∉ base

/-- The name under which numbers are reported. -/
def shown (base param : Str) : Option Str → Str
  | none => base ++ cs!"_" ++ param
  | some f => base ++ cs!"_" ++ param ++ cs!"_" ++ f

/-- The models are told apart by the last parts of their paths, which have no underscores, and the filters are distinct. -/
structure Clear (d : Definition) : Prop where
  models : ∀ (i j : Nat) (m m' : Ref) (b b' : Str), d.models[i]? = some m → d.models[j]? = some m' → LastPart m.model.path b → LastPart m'.model.path b' → '_' ∉ b ∧ (b = b' → i = j)
  filters : (d.filters.getD []).Nodup

/-! ## Names -/

theorem takeWhile_slash : ∀ (l r : Str), '/' ∉ l → (r = [] ∨ r.head? = some '/') → (l ++ r).takeWhile (fun ch => ch != '/') = l
  | [], r, _, hr => by
    rcases hr with rfl | hr
    · rfl
    · cases r with
      | nil => cases hr
      | cons c r => simp at hr; subst hr; rfl
  | c :: l, r, hl, hr => by
    rw [List.mem_cons, not_or] at hl
    rw [List.cons_append, List.takeWhile_cons]
    have : (c != '/') = true := by simpa using fun h => hl.1 h.symm
    rw [if_pos this, takeWhile_slash l r hl.2 hr]

theorem lastPart_eq {p b : Str} (h : LastPart p b) : Resume.basename p = b := by
  obtain ⟨⟨dir, rfl, hd⟩, hn⟩ := h
  unfold Resume.basename
  rw [List.reverse_append, takeWhile_slash _ _ (by simpa using hn), List.reverse_reverse]
  rcases hd with rfl | hd
  · exact Or.inl rfl
  · exact Or.inr (by rw [List.head?_reverse]; exact hd)

theorem lastPart_basename (p : Str) : LastPart p (Resume.basename p) := by
  refine ⟨⟨(p.reverse.dropWhile (fun ch => ch != '/')).reverse, ?_, ?_⟩, ?_⟩
  · unfold Resume.basename
    rw [← List.reverse_append, List.takeWhile_append_dropWhile, List.reverse_reverse]
  · cases h : p.reverse.dropWhile (fun ch => ch != '/') with
    | nil => exact Or.inl rfl
    | cons c l =>
      right
      rw [List.getLast?_reverse, List.head?_cons]
      have := List.head?_dropWhile_not (fun ch => ch != '/') p.reverse
      rw [h] at this
      simpa using this
  · unfold Resume.basename
    intro h
    rw [List.mem_reverse] at h
    have := List.all_eq_true.1 (List.all_takeWhile (p := fun ch => ch != '/') (l := p.reverse)) _ h
    simp at this

theorem columnName_eq {m : Ref} {b : Str} (h : LastPart m.model.path b) (param : Str) (f : Option Str) : columnName m param f = shown b param f := by
  unfold columnName shown filterSuffix
  rw [lastPart_eq h]
  cases f <;> simp

theorem split_first {a b c d : Str} (ha : '_' ∉ a) (hb : '_' ∉ b) (h : a ++ '_' :: c = b ++ '_' :: d) : a = b ∧ c = d := by
  induction a generalizing b with
  | nil =>
    cases b with
    | nil => simpa using h
    | cons x b => simp at h; exact absurd (by rw [← h.1]; simp) hb
  | cons y a ih =>
    cases b with
    | nil => simp at h; exact absurd (by rw [h.1]; simp) ha
    | cons x b =>
      simp only [List.cons_append, List.cons.injEq] at h
      rw [List.mem_cons, not_or] at ha hb
      obtain ⟨rfl, rfl⟩ := ih ha.2 hb.2 h.2
      exact ⟨by rw [h.1], rfl⟩

theorem params_plain (m : Method) : ∀ p ∈ m.params, '_' ∉ p := by
  cases m <;> decide

theorem suffix_inj {p p' : Str} {f f' : Option Str} (hp : '_' ∉ p) (hp' : '_' ∉ p') (h : p ++ filterSuffix f = p' ++ filterSuffix f') : p = p' ∧ f = f' := by
  cases f with
  | none =>
    cases f' with
    | none => simpa [filterSuffix] using h
    | some f' => simp only [filterSuffix, List.append_nil] at h; subst h; simp at hp
  | some f =>
    cases f' with
    | none => simp only [filterSuffix, List.append_nil] at h; subst h; simp at hp'
    | some f' =>
      obtain ⟨h1, h2⟩ := split_first hp hp' h
      exact ⟨h1, by rw [h2]⟩

/-! ## Columns -/

theorem mem_columns {d : Definition} {k : Str} {m s p : Nat} :
    (k, m, s, p) ∈ columns d ↔ ∃ par mod f, d.method.params[p]? = some par ∧ d.models[m]? = some mod ∧ ((d.filters.getD []).map some ++ [none])[s]? = some f ∧
      k = columnName mod par f := by
  unfold columns
  simp only [List.mem_flatMap, List.mem_map, Prod.exists, Prod.mk.injEq, List.mk_mem_zipIdx_iff_getElem?]
  constructor
  · rintro ⟨par, p', h1, mod, m', h2, f, s', h3, rfl, rfl, rfl, rfl⟩
    exact ⟨par, mod, f, h1, h2, h3, rfl⟩
  · rintro ⟨par, mod, f, h1, h2, h3, rfl⟩
    exact ⟨par, p, h1, mod, m, h2, f, s, h3, rfl, rfl, rfl, rfl⟩

theorem params_nodup (m : Method) : m.params.Nodup := by cases m <;> decide

/-- The names are distinct. -/
theorem columns_inj {d : Definition} (hc : Clear d) {k : Str} {m s p m' s' p' : Nat} (h : (k, m, s, p) ∈ columns d) (h' : (k, m', s', p') ∈ columns d) :
    m = m' ∧ s = s' ∧ p = p' := by
  obtain ⟨par, mod, f, h1, h2, h3, rfl⟩ := mem_columns.1 h
  obtain ⟨par', mod', f', h1', h2', h3', hk⟩ := mem_columns.1 h'
  obtain ⟨u1, u2⟩ := hc.models m m' mod mod' _ _ h2 h2' (lastPart_basename _) (lastPart_basename _)
  obtain ⟨u3, -⟩ := hc.models m' m mod' mod _ _ h2' h2 (lastPart_basename _) (lastPart_basename _)
  unfold columnName at hk
  obtain ⟨e1, e2⟩ := split_first u1 u3 hk
  obtain ⟨e3, e4⟩ := suffix_inj (params_plain _ _ (List.mem_of_getElem? h1)) (params_plain _ _ (List.mem_of_getElem? h1')) e2
  subst e3 e4
  refine ⟨u2 e1, ?_, ?_⟩
  · have hn : ((d.filters.getD []).map some ++ [none]).Nodup := by
      rw [List.nodup_append]
      refine ⟨hc.filters.map (Option.some_injective _), by simp, ?_⟩
      intro a ha b hb
      obtain ⟨_, _, rfl⟩ := List.mem_map.1 ha
      rw [List.mem_singleton] at hb
      subst hb
      simp
    obtain ⟨hs, _⟩ := List.getElem?_eq_some_iff.1 h3
    exact (List.getElem?_inj hs hn).1 (h3.trans h3'.symm)
  · obtain ⟨hs, _⟩ := List.getElem?_eq_some_iff.1 h1
    exact (List.getElem?_inj hs (params_nodup _)).1 (h1.trans h1'.symm)

section
variable {K : Type}

theorem lookup_setKey {V : Type} (d : List (Str × V)) (k k' : Str) (v : V) : (setKey d k v).lookup k' = if k' = k then some v else d.lookup k' := by
  induction d with
  | nil =>
    unfold setKey
    by_cases h : k' = k
    · subst h; simp
    · have : (k' == k) = false := by simpa using h
      simp only [List.lookup_cons, this, if_neg h]
  | cons e d ih =>
    obtain ⟨a, b⟩ := e
    unfold setKey
    by_cases ha : a = k
    · subst ha
      rw [if_pos rfl]
      by_cases h : k' = a
      · subst h; simp
      · have : (k' == a) = false := by simpa using h
        simp only [List.lookup_cons, this, if_neg h]
    · rw [if_neg ha]
      by_cases h : k' = a
      · subst h
        simp [ha]
      · have : (k' == a) = false := by simpa using h
        simp only [List.lookup_cons, this]
        exact ih

/-- What the assignments leave. -/
theorem collect_spec (x : Geno K) : ∀ (cs : List (Str × Nat × Nat × Nat)) (r : List (Str × List K)),
    (∀ e ∈ cs, ∃ v, column x e.2.1 e.2.2.1 e.2.2.2 = .ok v) →
    ∃ r', collectColumns x cs r = .ok r' ∧ (∀ k, k ∉ cs.map Prod.fst → r'.lookup k = r.lookup k) ∧
      ∀ k v, (∃ e ∈ cs, e.1 = k) → (∀ e ∈ cs, e.1 = k → column x e.2.1 e.2.2.1 e.2.2.2 = .ok v) → r'.lookup k = some v
  | [], r, _ => ⟨r, rfl, fun _ _ => rfl, fun _ _ h => by simp at h⟩
  | (k, m, s, p) :: cs, r, hok => by
    obtain ⟨v, hv⟩ := hok _ (List.mem_cons_self)
    obtain ⟨r', h1, h2, h3⟩ := collect_spec x cs (setKey r k v) (fun e he => hok e (List.mem_cons_of_mem _ he))
    refine ⟨r', ?_, ?_, ?_⟩
    · unfold collectColumns
      simp only at hv
      rw [hv]
      exact h1
    · intro k' hk'
      rw [List.map_cons, List.mem_cons, not_or] at hk'
      rw [h2 k' hk'.2, lookup_setKey, if_neg hk'.1]
    · intro k' w hex hall
      by_cases hin : ∃ e ∈ cs, e.1 = k'
      · exact h3 k' w hin (fun e he => hall e (List.mem_cons_of_mem _ he))
      · obtain ⟨e, he, rfl⟩ := hex
        rcases List.mem_cons.1 he with rfl | he
        · have hw := hall _ List.mem_cons_self rfl
          rw [hv] at hw
          cases hw
          rw [h2 _ (by simpa using hin), lookup_setKey, if_pos rfl]
        · exact absurd ⟨e, he, rfl⟩ hin

variable [Field K] [LinearOrder K]

/-- **C132** (partial) If models and filters can be told apart by name, the report of a genotype has every number in it: for each model, parameter and filter (or none) the
numbers of all layer groups, under the name made of them; and nothing else.  Without that condition numbers are lost (`C132_same_name`, `C132_underscore`). -/
theorem C132_reports_partial (g : Genome) (x : Geno K) (hx : RightShape g x) (hc : Clear g.definition) :
    ∃ r, byName g (.four x) = .ok r ∧
      (∀ m model p param s filter base, g.definition.models[m]? = some model → g.definition.method.params[p]? = some param →
        ((s = (g.definition.filters.getD []).length ∧ filter = none) ∨ ∃ f, (g.definition.filters.getD [])[s]? = some f ∧ filter = some f) → LastPart model.model.path base →
        r.lookup (shown base param filter) = some ((List.range x.groups).map (fun i => x.at' i m s p))) ∧
      ∀ k v, r.lookup k = some v → ∃ model ∈ g.definition.models, ∃ param ∈ g.definition.method.params, ∃ filter base, LastPart model.model.path base ∧
        (∀ f, filter = some f → f ∈ g.definition.filters.getD []) ∧ k = shown base param filter := by
  have hok : ∀ e ∈ columns g.definition, ∃ v, column x e.2.1 e.2.2.1 e.2.2.2 = .ok v := by
    rintro ⟨k, m, s, p⟩ he
    obtain ⟨par, mod, f, h1, h2, h3, -⟩ := mem_columns.1 he
    obtain ⟨l1, _⟩ := List.getElem?_eq_some_iff.1 h1
    obtain ⟨l2, _⟩ := List.getElem?_eq_some_iff.1 h2
    obtain ⟨l3, _⟩ := List.getElem?_eq_some_iff.1 h3
    refine ⟨_, if_pos ⟨by rw [hx.models]; exact l2, ?_, by rw [hx.params]; exact l1⟩⟩
    rw [hx.sets]
    simpa using l3
  obtain ⟨r, h1, h2, h3⟩ := collect_spec x (columns g.definition) [] hok
  refine ⟨r, h1, ?_, ?_⟩
  · intro m model p param s filter base hm hp hs hb
    have hs' : ((g.definition.filters.getD []).map some ++ [none])[s]? = some filter := by
      rcases hs with ⟨rfl, rfl⟩ | ⟨f, hf, rfl⟩
      · rw [List.getElem?_append_right (by simp)]
        simp
      · obtain ⟨l, _⟩ := List.getElem?_eq_some_iff.1 hf
        rw [List.getElem?_append_left (by simpa using l), List.getElem?_map, hf]
        rfl
    have hmem : (shown base param filter, m, s, p) ∈ columns g.definition := mem_columns.2 ⟨param, model, filter, hp, hm, hs', (columnName_eq hb param filter).symm⟩
    refine h3 _ _ ⟨_, hmem, rfl⟩ ?_
    rintro ⟨k', m', s', p'⟩ he' hk'
    simp only at hk'
    subst hk'
    obtain ⟨rfl, rfl, rfl⟩ := columns_inj hc hmem he'
    obtain ⟨v, hv⟩ := hok _ hmem
    simp only at hv ⊢
    unfold column at hv ⊢
    split_ifs at hv with hin
    rw [if_pos hin]
  · intro k v hk
    by_cases hin : k ∈ (columns g.definition).map Prod.fst
    · obtain ⟨⟨k', m, s, p⟩, he, rfl⟩ := List.mem_map.1 hin
      obtain ⟨par, mod, f, e1, e2, e3, rfl⟩ := mem_columns.1 he
      refine ⟨mod, List.mem_of_getElem? e2, par, List.mem_of_getElem? e1, f, _, lastPart_basename _, ?_, columnName_eq (lastPart_basename _) par f⟩
      rintro f' rfl
      have := List.mem_of_getElem? e3
      simpa using this
    · rw [h2 k hin] at hk
      cases hk

/-- **C132** A vector as the search has it is reported by the same names, with its numbers in the order of layer groups, models, filters and parameters. -/
theorem C132_vector (g : Genome) (l : List K) (hpos : g.definition.models ≠ []) (hg : 0 < g.groups)
    (hl : l.length = g.groups * g.definition.models.length * ((g.definition.filters.getD []).length + 1) * g.definition.method.params.length) :
    ∃ x : Geno K, byName g (.flat l) = byName g (.four x) ∧ x.groups = g.groups ∧ x.models = g.definition.models.length ∧
      x.sets = (g.definition.filters.getD []).length + 1 ∧ x.params = g.definition.method.params.length ∧
      ∀ i < x.groups, ∀ m < x.models, ∀ s < x.sets, ∀ q < x.params, l[((i * x.models + m) * x.sets + s) * x.params + q]? = some (x.at' i m s q) := by
  have hlen : 0 < g.definition.models.length := List.length_pos_iff.2 hpos
  have hd : 0 < g.groups * g.definition.models.length * g.sets := Nat.mul_pos (Nat.mul_pos hg hlen) (by unfold Genome.sets; omega)
  have hl' : l.length = g.groups * g.definition.models.length * g.sets * g.definition.method.params.length := hl
  have hp : l.length / (g.groups * g.definition.models.length * g.sets) = g.definition.method.params.length := by rw [hl', Nat.mul_div_cancel_left _ hd]
  refine ⟨{ groups := g.groups, models := g.definition.models.length, sets := g.sets, params := l.length / (g.groups * g.definition.models.length * g.sets),
            at' := fun i m s q => (l[((i * g.definition.models.length + m) * g.sets + s) * (l.length / (g.groups * g.definition.models.length * g.sets)) + q]?).getD 0 }, ?_, rfl, rfl, rfl, hp, ?_⟩
  · unfold byName Genome.toTorch
    simp only
    rw [if_neg (by rw [not_or]; exact ⟨by omega, by rw [hl']; simp⟩)]
  · intro i hi m hm s hs q hq
    simp only at hi hm hs hq ⊢
    rw [hp] at hq ⊢
    have hlt : ((i * g.definition.models.length + m) * g.sets + s) * g.definition.method.params.length + q < l.length := by
      rw [hl']
      have h1 : i * g.definition.models.length + m < g.groups * g.definition.models.length := by nlinarith
      have h2 : (i * g.definition.models.length + m) * g.sets + s < g.groups * g.definition.models.length * g.sets := by nlinarith
      nlinarith
    rw [List.getElem?_eq_getElem hlt]
    rfl

/-- **C132** (counterexample) Two models with the same last part of the path: however they differ, the numbers of only one of them are reported. -/
theorem C132_same_name (g : Genome) (x : Geno K) (a b : Ref) (hm : g.definition.models = [a, b]) (hx : RightShape g x) (base : Str) (ha : LastPart a.model.path base)
    (hb : LastPart b.model.path base) (hf : g.definition.filters = none) (hmeth : g.definition.method = .linear) :
    byName g (.four x) = .ok [(shown base cs!"weight" none, (List.range x.groups).map (fun i => x.at' i 1 0 0))] := by
  have h0 : (0 < x.models ∧ 0 < x.sets ∧ 0 < x.params) ∧ (1 < x.models ∧ 0 < x.sets ∧ 0 < x.params) := by
    rw [hx.models, hx.sets, hx.params, hm, hmeth]
    simp [Method.params]
  unfold byName Genome.toTorch
  simp only [columns, hm, hf, hmeth, Method.params, Option.getD_none, List.map_nil, List.nil_append, List.zipIdx_cons, List.zipIdx_nil, List.flatMap_cons, List.flatMap_nil, List.map_cons,
    List.append_nil, List.cons_append, Nat.zero_add, columnName_eq ha, columnName_eq hb, collectColumns, column, if_pos h0.1, if_pos h0.2, setKey, if_true]

/-- **C132** (counterexample) A filter `weight` and models `a`, `a_weight` that have different last parts: again two columns have one name, and three names stand for four. -/
theorem C132_underscore (g : Genome) (x : Geno K) (a b : Ref) (hm : g.definition.models = [a, b]) (hx : RightShape g x) (ha : LastPart a.model.path cs!"a")
    (hb : LastPart b.model.path cs!"a_weight") (hf : g.definition.filters = some [cs!"weight"]) (hmeth : g.definition.method = .linear) :
    ∃ r, byName g (.four x) = .ok r ∧ r.map Prod.fst = [cs!"a_weight_weight", cs!"a_weight", cs!"a_weight_weight_weight"] ∧
      r.lookup cs!"a_weight_weight" = some ((List.range x.groups).map (fun i => x.at' i 1 1 0)) := by
  have h0 : (0 < x.models ∧ 1 < x.models) ∧ (0 < x.sets ∧ 1 < x.sets) ∧ 0 < x.params := by
    rw [hx.models, hx.sets, hx.params, hm, hmeth, hf]
    simp [Method.params]
  obtain ⟨⟨g1, g2⟩, ⟨g3, g4⟩, g5⟩ := h0
  refine ⟨[(cs!"a_weight_weight", (List.range x.groups).map (fun i => x.at' i 1 1 0)), (cs!"a_weight", (List.range x.groups).map (fun i => x.at' i 0 1 0)),
    (cs!"a_weight_weight_weight", (List.range x.groups).map (fun i => x.at' i 1 0 0))], ?_, rfl, rfl⟩
  have e1 : shown cs!"a" cs!"weight" (some cs!"weight") = cs!"a_weight_weight" := rfl
  have e2 : shown cs!"a" cs!"weight" none = cs!"a_weight" := rfl
  have e3 : shown cs!"a_weight" cs!"weight" (some cs!"weight") = cs!"a_weight_weight_weight" := rfl
  have e4 : shown cs!"a_weight" cs!"weight" none = cs!"a_weight_weight" := rfl
  unfold byName Genome.toTorch
  simp only [columns, hm, hf, hmeth, Method.params, Option.getD_some, List.map_nil, List.nil_append, List.zipIdx_cons, List.zipIdx_nil, List.flatMap_cons, List.flatMap_nil, List.map_cons,
    List.append_nil, List.cons_append, Nat.zero_add, columnName_eq ha, columnName_eq hb, collectColumns, column, g1, g2, g3, g4, g5, and_self, if_true, e1, e2, e3, e4]
  rfl

end

/-! ## Concrete cases -/

/-- Two models and a filter. -/
def reported : Genome where
  definition :=
    { models := [⟨⟨cs!"org/one", none⟩, none, none⟩, ⟨⟨cs!"two", none⟩, none, none⟩], method := .ties, baseModel := some ⟨⟨cs!"two", none⟩, none, none⟩,
      granularity := 2, filters := some [cs!"mlp"] }
  numLayers := 4

theorem reported_clear : Clear reported.definition where
  models := by
    intro i j m m' b b' hi hj hb hb'
    have h1 := lastPart_eq hb
    have h2 := lastPart_eq hb'
    subst h1 h2
    have : ∀ i j m m', reported.definition.models[i]? = some m → reported.definition.models[j]? = some m' → (i = 0 ∨ i = 1) ∧ (j = 0 ∨ j = 1) := by
      intro i j m m' hi hj
      have l1 := (List.getElem?_eq_some_iff.1 hi).1
      have l2 := (List.getElem?_eq_some_iff.1 hj).1
      have hl : reported.definition.models.length = 2 := rfl
      omega
    rcases this i j m m' hi hj with ⟨rfl | rfl, rfl | rfl⟩ <;> (cases hi; cases hj; decide +kernel)
  filters := by decide +kernel

example : ∃ r, byName reported (.flat [1, 2, 3, 4, 5, 6, 7, 8, 9, 10, 11, 12, 13, 14, 15, (16 : ℚ)]) = .ok r ∧ r.lookup cs!"one_weight_mlp" = some [1, 9] ∧
    r.lookup cs!"two_density" = some [8, 16] := ⟨_, rfl, by decide +kernel, by decide +kernel⟩

example : ∃ x : Geno ℚ, RightShape reported x := ⟨⟨2, 2, 2, 2, fun _ _ _ _ => 0⟩, by decide, by decide, rfl, rfl, rfl⟩

end Verif.Genome
