import Verif.Model.ScriptMain
import Verif.Props.MainTask
import Verif.Props.Scripts
import Verif.Props.Required

/-! # C137: `mergekit-legacy` from the command line to the files -/

namespace Verif.Main

open Verif.ModelRef (Str Ref)
open Verif.Document
open Verif.WholeMerge (getMethod MethodErr GtaVariant gtaVariants gtaMethod Trimmed Doable Combined)
open Verif.CommandLine (Line Enough Called Event meaning valuesOf marksOf)
open Verif.Shipped (Family IsShipped Merges Present TaskConf numbered said numbersOf Switch)
open Verif.Sparsify (SortsAsc SortsDesc)
open Verif.Scripts (listed valueAt fits)

/-! ## What is claimed -/

/-- An option with one value, written `--<form> <value>`. -/
def one (name form : Str) : CommandLine.Opt := { name, kind := .value, on := [cs!"--" ++ form] }

/-- An option that can be given several times. -/
def several (name form : Str) : CommandLine.Opt := { name, kind := .many, on := [cs!"--" ++ form] }

/-- A flag `--<form>`, with `--no-<form>`. -/
def yesNo (name form : Str) : CommandLine.Opt := { name, kind := .flag, on := [cs!"--" ++ form], off := [cs!"--no-" ++ form] }

/-- What a line of `mergekit-legacy` asks for. -/
structure Asked where
  merge : List Str
  base : Option Str
  density : List ℝ
  weight : List ℝ
  method : Str
  normalize : Bool
  mask : Bool
  bf16 : Bool
  naive : Bool

/-- Reading it off the options on the line: all values of an option that can be repeated, in order; the last of the others, and the method `ties` and normalization if nothing is said. -/
structure Asks (float : Str → Option ℝ) (es : List Event) (q : Asked) : Prop where
  merge : valuesOf (several cs!"merge" cs!"merge") es = q.merge
  density : List.Forall₂ (fun s x => float s = some x) (valuesOf (several cs!"density" cs!"density") es) q.density
  weight : List.Forall₂ (fun s x => float s = some x) (valuesOf (several cs!"weight" cs!"weight") es) q.weight
  method : (valuesOf (one cs!"method" cs!"method") es).getLast?.getD cs!"ties" = q.method
  base : (valuesOf (one cs!"base_model" cs!"base-model") es).getLast? = q.base
  normalize : (marksOf (yesNo cs!"normalize" cs!"normalize") es).getLast?.getD true = q.normalize
  mask : (marksOf (yesNo cs!"int8_mask" cs!"int8-mask") es).getLast?.getD false = q.mask
  bf16 : (marksOf (yesNo cs!"bf16" cs!"bf16") es).getLast?.getD false = q.bf16
  naive : (marksOf (yesNo cs!"naive_count" cs!"naive-count") es).getLast?.getD false = q.naive

/-- The parameters of the model in position `i`: the density and the weight for it; for slerp there are no weights of models. -/
def Asked.params (q : Asked) (i : Nat) : List (Str × ℝ) :=
  ((valueAt q.density i).map (fun x => (cs!"density", x))).toList ++ (if q.method = cs!"slerp" then [] else ((valueAt q.weight i).map (fun x => (cs!"weight", x))).toList)

/-- The document that says the same: the models in order, the base model last unless it is among them. -/
def Asked.document (q : Asked) : List (Str × Doc ℝ) :=
  [(cs!"merge_method", .str q.method),
   (cs!"models", .list ((listed q.merge q.base).zipIdx.map (fun m => .dict [(cs!"model", .str m.1), (cs!"parameters", .dict ((q.params m.2).map (fun e => (e.1, .float e.2))))]))),
   (cs!"parameters", .dict ((if q.method = cs!"slerp" then q.weight.map (fun t => (cs!"t", .float t)) else []) ++ (if q.mask then [(cs!"int8_mask", .bool true)] else []) ++
     (if q.naive then [(cs!"consensus_method", .str cs!"count")] else []) ++ [(cs!"normalize", .bool q.normalize)])),
   (cs!"base_model", match q.base with
     | none => .null
     | some b => .str b),
   (cs!"dtype", if q.bf16 then .str cs!"bfloat16" else .null)]

/-- Densities and weights that can be used: one for all or at most one for each model; for slerp exactly one. -/
def Asked.Usable (q : Asked) : Prop :=
  fits (listed q.merge q.base).length q.density ∧ if q.method = cs!"slerp" then q.weight.length = 1 else fits (listed q.merge q.base).length q.weight

/-! ## Reading the options -/

theorem lookup_own {c : CommandLine.Command} (hn : (c.own.map CommandLine.Opt.name).Nodup) {es : List Event} {o : CommandLine.Opt} (ho : o ∈ c.own) :
    (c.own.map (fun o => (o.name, meaning o es))).lookup o.name = some (meaning o es) := by
  generalize c.own = l at hn ho
  induction l with
  | nil => cases ho
  | cons a l ih =>
    rw [List.map_cons, List.nodup_cons] at hn
    rw [List.map_cons, List.lookup_cons]
    rcases List.mem_cons.1 ho with rfl | ho
    · simp
    · have : o.name ≠ a.name := fun h => hn.1 (h ▸ List.mem_map.2 ⟨o, ho, rfl⟩)
      simp only [beq_eq_false_iff_ne.2 this]
      exact ih hn.2 ho

theorem own_nodup : ∀ c ∈ CommandLine.commands, (c.own.map CommandLine.Opt.name).Nodup := by decide +kernel

section
variable {c : CommandLine.Command} (hc : c ∈ CommandLine.commands) {es : List Event} {args : List Str} {k : CommandLine.Call} (hk : Called c es args k)
include hc hk

theorem wordsOf_called {o : CommandLine.Opt} (ho : o ∈ c.own) (hm : o.kind = .many) : wordsOf k o.name = valuesOf o es := by
  unfold wordsOf
  rw [hk.own, lookup_own (own_nodup c hc) ho]
  unfold meaning
  rw [hm]
  simp only
  by_cases h : valuesOf o es = []
  · rw [if_pos h, h]
  · rw [if_neg h]

theorem wordOf_called {o : CommandLine.Opt} (ho : o ∈ c.own) (hm : o.kind = .value) : wordOf k o.name = (valuesOf o es).getLast? := by
  unfold wordOf
  rw [hk.own, lookup_own (own_nodup c hc) ho]
  unfold meaning
  rw [hm]
  simp only
  cases (valuesOf o es).getLast? <;> rfl

theorem flagOf_called {o : CommandLine.Opt} (ho : o ∈ c.own) (hm : o.kind = .flag) (d : Bool) : flagOf k o.name d = (marksOf o es).getLast?.getD d := by
  unfold flagOf
  rw [hk.own, lookup_own (own_nodup c hc) ho]
  unfold meaning
  rw [hm]
  simp only
  cases (marksOf o es).getLast? <;> rfl

end

theorem floats_iff {float : Str → Option ℝ} : ∀ {l : List Str} {xs : List ℝ}, floats float l = some xs ↔ List.Forall₂ (fun s x => float s = some x) l xs
  | [], xs => by
    unfold floats
    constructor
    · intro h; cases h; exact .nil
    · intro h; cases h; rfl
  | s :: l, xs => by
    unfold floats
    constructor
    · intro h
      cases hs : float s with
      | none => rw [hs] at h; cases h
      | some x =>
        rw [hs] at h
        simp only at h
        cases hl : floats float l with
        | none => rw [hl] at h; cases h
        | some ys =>
          rw [hl] at h
          cases h
          exact .cons hs (floats_iff.1 hl)
    · intro h
      cases h with
      | cons h1 h2 =>
        rw [h1]
        simp only
        rw [floats_iff.2 h2]

theorem legacy_mem : CommandLine.legacy ∈ CommandLine.commands := by simp [CommandLine.commands]

/-- What the command is called with, in terms of the options on the line. -/
theorem legacy_options {es : List Event} {args : List Str} {k : CommandLine.Call} (hk : Called CommandLine.legacy es args k) :
    wordsOf k cs!"merge" = valuesOf (several cs!"merge" cs!"merge") es ∧ wordsOf k cs!"density" = valuesOf (several cs!"density" cs!"density") es ∧
    wordsOf k cs!"weight" = valuesOf (several cs!"weight" cs!"weight") es ∧ wordOf k cs!"method" = (valuesOf (one cs!"method" cs!"method") es).getLast? ∧
    wordOf k cs!"base_model" = (valuesOf (one cs!"base_model" cs!"base-model") es).getLast? ∧
    flagOf k cs!"normalize" true = (marksOf (yesNo cs!"normalize" cs!"normalize") es).getLast?.getD true ∧
    flagOf k cs!"int8_mask" false = (marksOf (yesNo cs!"int8_mask" cs!"int8-mask") es).getLast?.getD false ∧
    flagOf k cs!"bf16" false = (marksOf (yesNo cs!"bf16" cs!"bf16") es).getLast?.getD false ∧
    flagOf k cs!"naive_count" false = (marksOf (yesNo cs!"naive_count" cs!"naive-count") es).getLast?.getD false :=
  ⟨wordsOf_called legacy_mem hk (o := several cs!"merge" cs!"merge") (by decide +kernel) rfl,
   wordsOf_called legacy_mem hk (o := several cs!"density" cs!"density") (by decide +kernel) rfl,
   wordsOf_called legacy_mem hk (o := several cs!"weight" cs!"weight") (by decide +kernel) rfl,
   wordOf_called legacy_mem hk (o := one cs!"method" cs!"method") (by decide +kernel) rfl,
   wordOf_called legacy_mem hk (o := one cs!"base_model" cs!"base-model") (by decide +kernel) rfl,
   flagOf_called legacy_mem hk (o := yesNo cs!"normalize" cs!"normalize") (by decide +kernel) rfl _,
   flagOf_called legacy_mem hk (o := yesNo cs!"int8_mask" cs!"int8-mask") (by decide +kernel) rfl _,
   flagOf_called legacy_mem hk (o := yesNo cs!"bf16" cs!"bf16") (by decide +kernel) rfl _,
   flagOf_called legacy_mem hk (o := yesNo cs!"naive_count" cs!"naive-count") (by decide +kernel) rfl _⟩

/-! ## The document -/

theorem ifGiven_map (key : Str) (o : Option ℝ) : ifGiven key o = (o.map (fun x => (key, x))).toList.map (fun e => (e.1, .float e.2)) := by
  cases o <;> rfl

theorem legacyDoc_eq {q : Asked} {c : Scripts.Legacy ℝ} (h : Scripts.Faithful q.merge q.base q.density q.weight (decide (q.method = cs!"slerp")) c) :
    legacyDoc q.method c q.mask q.naive q.normalize q.bf16 = .dict q.document := by
  obtain ⟨h1, h2, h3, h4⟩ := h
  have hmodels : c.models.map entryDoc = (listed q.merge q.base).zipIdx.map (fun m => .dict [(cs!"model", .str m.1), (cs!"parameters", .dict ((q.params m.2).map (fun e => (e.1, .float e.2))))]) := by
    apply List.ext_getElem?
    intro i
    rw [List.getElem?_map, List.getElem?_map, List.getElem?_zipIdx]
    cases hm : (listed q.merge q.base)[i]? with
    | none =>
      have : c.models[i]? = none := by
        rw [List.getElem?_eq_none_iff] at hm ⊢
        omega
      rw [this]; rfl
    | some m =>
      rw [h3 i m hm]
      simp only [Option.map_some, entryDoc, Asked.params, Nat.zero_add, List.map_append, ifGiven_map]
      by_cases hs : q.method = cs!"slerp"
      · simp only [hs, decide_true, if_true]
        simp
      · simp only [hs, decide_false, if_false, Bool.false_eq_true]
  have ht : ifGiven cs!"t" c.t = if q.method = cs!"slerp" then q.weight.map (fun t => (cs!"t", Doc.float t)) else [] := by
    by_cases hs : q.method = cs!"slerp"
    · simp only [hs, decide_true, if_true] at h4 ⊢
      obtain ⟨w, hw, hc⟩ := h4
      rw [hw, hc]; rfl
    · simp only [hs, decide_false, if_false, Bool.false_eq_true] at h4 ⊢
      rw [h4]; rfl
  unfold legacyDoc Asked.document
  rw [hmodels, ht, h1]
  cases q.base <;> cases q.bf16 <;> rfl

/-- **C137** What `mergekit-legacy` merges: exactly if the line is right and its numbers are numbers, there are not too many of them, a merge is started - the one `mergekit-yaml` starts
with the document that says the same (`Asked.document`), into the directory named and with the options given. -/
theorem C137_main (W : World) (float : Str → Option ℝ) {line : List Str} (l : Line CommandLine.legacy.opts line) (p : Prepared) :
    legacyMain W float line = .ok p ↔ ∃ k q, Enough CommandLine.legacy l.events l.args ∧ Called CommandLine.legacy l.events l.args k ∧ l.args = [p.out] ∧ k.merge = p.options ∧
      p.text = [] ∧ Asks float l.events q ∧ q.Usable ∧ read W.lib (.dict q.document) = .ok p.conf ∧ getMethod W.chance p.conf.mergeMethod = some p.method := by
  have hone : ∀ a : List Str, a.length = 1 → ∃ O, a = [O] := by
    intro a ha
    match a, ha with
    | [O], _ => exact ⟨O, rfl⟩
  have harg : ∀ {k : CommandLine.Call} {O : Str}, k.args = CommandLine.legacy.args.zip [O] → argument k cs!"out_path" = O := by
    intro k O h
    unfold argument
    rw [h]
    rfl
  constructor
  · intro h
    unfold legacyMain legacyArguments at h
    cases hk : CommandLine.call CommandLine.legacy line with
    | error e => rw [hk] at h; cases h
    | ok k =>
      rw [hk] at h
      simp only at h
      obtain ⟨h1, h2⟩ := (CommandLine.C128_call legacy_mem l k).1 hk
      obtain ⟨O, hO⟩ := hone l.args h1.args
      have hargs := h2.args
      rw [hO] at hargs
      have ha := harg hargs
      obtain ⟨o1, o2, o3, o4, o5, o6, o7, o8, o9⟩ := legacy_options h2
      cases hd : floats float (wordsOf k cs!"density") with
      | none => rw [hd] at h; cases h
      | some density =>
        rw [hd] at h
        cases hw : floats float (wordsOf k cs!"weight") with
        | none => rw [hw] at h; cases h
        | some weight =>
          rw [hw] at h
          simp only at h
          cases hl : Scripts.legacy (wordsOf k cs!"merge") (wordOf k cs!"base_model") density weight (decide ((wordOf k cs!"method").getD cs!"ties" = cs!"slerp")) with
          | error e => rw [hl] at h; cases h
          | ok c =>
            rw [hl] at h
            simp only at h
            let q : Asked := ⟨wordsOf k cs!"merge", wordOf k cs!"base_model", density, weight, (wordOf k cs!"method").getD cs!"ties", flagOf k cs!"normalize" true,
              flagOf k cs!"int8_mask" false, flagOf k cs!"bf16" false, flagOf k cs!"naive_count" false⟩
            have hdoc := legacyDoc_eq (q := q) (Scripts.C78_faithful hl)
            have hus := (Scripts.C78_accepted (K := ℝ)).1 ⟨c, hl⟩
            have husable : q.Usable := by
              refine ⟨hus.1, ?_⟩
              have := hus.2
              simp only [decide_eq_true_eq] at this
              exact this
            have h' : prepare W k (.dict q.document) = .ok p := by rw [← hdoc]; exact h
            unfold prepare at h'
            cases hr : read W.lib (.dict q.document) with
            | error e => rw [hr] at h'; cases h'
            | ok cf =>
              rw [hr] at h'
              simp only at h'
              cases hg : getMethod W.chance cf.mergeMethod with
              | none => rw [hg] at h'; cases h'
              | some m =>
                rw [hg] at h'
                cases h'
                refine ⟨k, q, h1, h2, ?_, rfl, rfl, ⟨o1.symm, ?_, ?_, by rw [← o4], o5.symm, o6.symm, o7.symm, o8.symm, o9.symm⟩, husable, hr, hg⟩
                · rw [ha]; exact hO
                · rw [← o2]; exact floats_iff.1 hd
                · rw [← o3]; exact floats_iff.1 hw
  · rintro ⟨k, q, h1, h2, hO, ho, htext, hq, hus, hr, hg⟩
    have hk := (CommandLine.C128_call legacy_mem l k).2 ⟨h1, h2⟩
    have hargs := h2.args
    rw [hO] at hargs
    have ha := harg hargs
    obtain ⟨o1, o2, o3, o4, o5, o6, o7, o8, o9⟩ := legacy_options h2
    obtain ⟨q1, q2, q3, q4, q5, q6, q7, q8, q9⟩ := hq
    rw [q1] at o1
    rw [q5] at o5
    rw [q6] at o6
    rw [q7] at o7
    rw [q8] at o8
    rw [q9] at o9
    have o4' : (wordOf k cs!"method").getD cs!"ties" = q.method := by rw [o4]; exact q4
    rw [← o2] at q2
    rw [← o3] at q3
    obtain ⟨c, hl⟩ := (Scripts.C78_accepted (merge := q.merge) (base := q.base) (density := q.density) (weight := q.weight) (slerp := decide (q.method = cs!"slerp"))).2
      ⟨hus.1, by simpa using hus.2⟩
    have hdoc := legacyDoc_eq (q := q) (Scripts.C78_faithful hl)
    unfold legacyMain legacyArguments
    rw [hk]
    simp only
    rw [floats_iff.2 q2, floats_iff.2 q3]
    simp only
    rw [o4', o1, o5, hl]
    simp only
    rw [o6, o7, o8, o9, hdoc]
    unfold prepare
    rw [hr]
    simp only
    rw [hg, ha]
    obtain ⟨_, _, _, _, _⟩ := p
    cases ho
    cases htext
    rfl

theorem forall₂_in {A B : Type} {R : A → B → Prop} {l : List A} {r : List B} (h : List.Forall₂ R l r) : ∀ a ∈ l, ∃ b ∈ r, R a b := by
  induction h with
  | nil => intro a ha; cases ha
  | cons h _ ih =>
    intro a ha
    rcases List.mem_cons.1 ha with rfl | ha
    · exact ⟨_, by simp, h⟩
    · obtain ⟨b, hb, hr⟩ := ih a ha
      exact ⟨b, by simp [hb], hr⟩

/-- **C137** `--naive-count` never works: no merge is started, because "count" is not a number. -/
theorem C137_naive_count_fails (W : World) (hcount : W.lib.strFloat cs!"count" = none) (float : Str → Option ℝ) {line : List Str} (l : Line CommandLine.legacy.opts line)
    (hn : (marksOf (yesNo cs!"naive_count" cs!"naive-count") l.events).getLast? = some true) (p : Prepared) : legacyMain W float line ≠ .ok p := by
  intro h
  obtain ⟨k, q, -, -, -, -, -, hq, -, hr, -⟩ := (C137_main W float l p).1 h
  have hnaive : q.naive = true := by rw [← hq.naive, hn]; rfl
  have hs := (C130_reads hr).parameters
  have hlook : q.document.lookup cs!"parameters" = some (.dict ((if q.method = cs!"slerp" then q.weight.map (fun t => (cs!"t", .float t)) else []) ++ (if q.mask then [(cs!"int8_mask", .bool true)] else []) ++
     (if q.naive then [(cs!"consensus_method", .str cs!"count")] else []) ++ [(cs!"normalize", .bool q.normalize)])) := rfl
  rw [hlook, hnaive] at hs
  simp only [if_true] at hs
  generalize p.conf.parameters = x at hs
  cases hs with
  | given _ hm =>
    cases hm with
    | mk hm =>
      have hin : (cs!"consensus_method", (.str cs!"count" : Doc ℝ)) ∈ (if q.method = cs!"slerp" then q.weight.map (fun t => (cs!"t", Doc.float t)) else []) ++
          (if q.mask then [(cs!"int8_mask", .bool true)] else []) ++ [(cs!"consensus_method", .str cs!"count")] ++ [(cs!"normalize", .bool q.normalize)] := by simp
      obtain ⟨a, -, -, ha⟩ := forall₂_in hm _ hin
      generalize a.2 = y at ha
      cases ha with
      | one h => cases h with | text h => rw [hcount] at h; cases h
      | cond h => cases h

/-! ## Merges -/

/-- The parameters for all models. -/
noncomputable def Asked.all (q : Asked) (L : Lib ℝ) : List (Str × ℝ) :=
  (if q.method = cs!"slerp" then q.weight.map (fun t => (cs!"t", t)) else []) ++ (if q.mask then [(cs!"int8_mask", L.ofInt 1)] else []) ++
    [(cs!"normalize", L.ofInt (if q.normalize then 1 else 0))]

theorem params_forall (L : Lib ℝ) (p : List (Str × ℝ)) : List.Forall₂ (fun e a => e.1 = a.1 ∧ Number L e.2 a.2) (p.map (fun e => (e.1, Doc.float e.2))) p := by
  rw [List.forall₂_map_left_iff]
  exact List.forall₂_same.2 (fun _ _ => ⟨rfl, .float _⟩)

theorem all_forall (L : Lib ℝ) (q : Asked) (hn : q.naive = false) : List.Forall₂ (fun e a => e.1 = a.1 ∧ Number L e.2 a.2)
    ((if q.method = cs!"slerp" then q.weight.map (fun t => (cs!"t", Doc.float t)) else []) ++ (if q.mask then [(cs!"int8_mask", .bool true)] else []) ++
     (if q.naive then [(cs!"consensus_method", .str cs!"count")] else []) ++ [(cs!"normalize", .bool q.normalize)]) (q.all L) := by
  unfold Asked.all
  rw [hn]
  simp only [Bool.false_eq_true, if_false, List.append_nil]
  refine List.rel_append (List.rel_append ?_ ?_) ?_
  · by_cases h : q.method = cs!"slerp"
    · rw [if_pos h, if_pos h, List.forall₂_map_left_iff, List.forall₂_map_right_iff]
      exact List.forall₂_same.2 (fun _ _ => ⟨rfl, .float _⟩)
    · rw [if_neg h, if_neg h]; exact .nil
  · cases q.mask
    · exact .nil
    · exact .cons ⟨rfl, .yes⟩ .nil
  · cases q.normalize
    · exact .cons ⟨rfl, .no⟩ .nil
    · exact .cons ⟨rfl, .yes⟩ .nil

/-- The references that the texts stand for. -/
def Stand (l : List Str) (rs : List Ref) : Prop := List.Forall₂ (fun s r => ModelRef.parse s = .ok r) l rs

theorem zipIdx_forall {A B : Type} {R : A → B → Prop} {l : List A} {r : List B} (h : List.Forall₂ R l r) (n : Nat) :
    List.Forall₂ (fun a b => R a.1 b.1 ∧ a.2 = b.2) (l.zipIdx n) (r.zipIdx n) := by
  induction h generalizing n with
  | nil => exact .nil
  | cons h _ ih => exact .cons ⟨h, rfl⟩ (ih _)

/-- The document in the terms of C133. -/
theorem document_plain (L : Lib ℝ) (q : Asked) (hn : q.naive = false) {rs : List Ref} (hrs : Stand (listed q.merge q.base) rs) {base : Option Ref}
    (hb : Maybe RefSays (q.document.lookup cs!"base_model") base) :
    PlainDoc L q.document q.method base (rs.zipIdx.map (fun e => (e.1, q.params e.2))) (q.all L) (if q.bf16 then some cs!"bfloat16" else none) none where
  method := ⟨_, rfl, .mk _⟩
  base := hb
  models := by
    refine ⟨_, rfl, ?_⟩
    rw [List.forall₂_map_left_iff, List.forall₂_map_right_iff]
    refine (zipIdx_forall hrs 0).imp ?_
    rintro a b ⟨h1, h2⟩
    refine ⟨_, some (q.params b.2), rfl, ⟨_, rfl, .text h1⟩, ?_, rfl⟩
    rw [h2]
    exact .given (by simp) (.mk (params_forall L _))
  parameters := ⟨some (q.all L), .given (by simp) (.mk (all_forall L q hn)), rfl⟩
  dtype := by
    show Maybe Text (some (if q.bf16 then .str cs!"bfloat16" else .null)) _
    cases q.bf16
    · exact .null
    · exact .given (by simp) (.mk _)
  outDtype := .missing
  template := ⟨none, .missing⟩
  others := by
    intro k hk
    simp only [List.mem_cons, List.not_mem_nil, or_false] at hk
    rcases hk with rfl | rfl | rfl | rfl <;> rfl

theorem params_density (q : Asked) (i : Nat) : (q.params i).lookup cs!"density" = valueAt q.density i := by
  unfold Asked.params
  cases valueAt q.density i with
  | some x => rfl
  | none =>
    split
    · rfl
    · cases valueAt q.weight i <;> rfl

theorem params_weight (q : Asked) (hs : q.method ≠ cs!"slerp") (i : Nat) : (q.params i).lookup cs!"weight" = valueAt q.weight i := by
  unfold Asked.params
  rw [if_neg hs]
  cases valueAt q.density i <;> cases valueAt q.weight i <;> rfl

theorem params_other (q : Asked) (i : Nat) {key : Str} (h1 : key ≠ cs!"density") (h2 : key ≠ cs!"weight") : (q.params i).lookup key = none := by
  have g1 : (key == cs!"density") = false := beq_eq_false_iff_ne.2 h1
  have g2 : (key == cs!"weight") = false := beq_eq_false_iff_ne.2 h2
  unfold Asked.params
  split <;> cases valueAt q.density i <;> cases valueAt q.weight i <;> simp [List.lookup_cons, g1, g2]

theorem all_lookup (q : Asked) (L : Lib ℝ) (hs : q.method ≠ cs!"slerp") :
    (q.all L).lookup cs!"normalize" = some (L.ofInt (if q.normalize then 1 else 0)) ∧
    (q.all L).lookup cs!"int8_mask" = (if q.mask then some (L.ofInt 1) else none) ∧
    ∀ key, key ≠ cs!"normalize" → key ≠ cs!"int8_mask" → (q.all L).lookup key = none := by
  unfold Asked.all
  rw [if_neg hs]
  refine ⟨?_, ?_, ?_⟩
  · cases q.mask <;> rfl
  · cases q.mask <;> rfl
  · intro key h1 h2
    have g1 : (key == cs!"normalize") = false := beq_eq_false_iff_ne.2 h1
    have g2 : (key == cs!"int8_mask") = false := beq_eq_false_iff_ne.2 h2
    cases q.mask <;> simp [List.lookup_cons, g1, g2]

/-- The numbers for a model. -/
theorem numbers_eq (q : Asked) (L : Lib ℝ) (hs : q.method ≠ cs!"slerp") (w : ℝ) (i : Nat) :
    numbersOf w (q.params i) (q.all L) = ⟨w, (valueAt q.density i).getD 1, 1 / 100, 15 / 100⟩ := by
  obtain ⟨-, -, h3⟩ := all_lookup q L hs
  unfold numbersOf said
  have d1 : (q.params i).lookup "density".toList = valueAt q.density i := params_density q i
  have d2 : (q.params i).lookup "gamma".toList = none := params_other q i (by decide) (by decide)
  have d3 : (q.params i).lookup "epsilon".toList = none := params_other q i (by decide) (by decide)
  have e1 : (q.all L).lookup "density".toList = none := h3 _ (by decide) (by decide)
  have e2 : (q.all L).lookup "gamma".toList = none := h3 _ (by decide) (by decide)
  have e3 : (q.all L).lookup "epsilon".toList = none := h3 _ (by decide) (by decide)
  rw [d1, d2, d3, e1, e2, e3]
  simp

theorem zipIdx_fst {A : Type} (l : List A) : l.zipIdx.map Prod.fst = l := by simp

theorem variant_not_slerp {g : GtaVariant} (h : Variant g) : g.name ≠ cs!"slerp" := by
  cases h <;> decide

/-- **C137** A merge by task arithmetic, TIES, DARE, breadcrumbs or DELLA with `mergekit-legacy`, from the command line to the files.  The command line is right; the models and the base
model named on it are of one shipped architecture and size, and every weight of the architecture is there in all of them in one shape; every model but the base has a weight; the
densities allow the sparsification and the data types exist.  Then the command starts a merge into the directory named, which succeeds and leaves exactly the weights of the
architecture, each the base model's tensor of that name plus the combined changes of the other models, each change sparsified with the density for its model (1 if there is none),
the combination divided by the sum of weights unless `--no-normalize` is given. -/
theorem C137_task (W : World) (hdesc : ∀ w n, SortsDesc w n (W.chance.tools.sortDesc w n)) (hasc : ∀ w n, SortsAsc w n (W.chance.tools.sortAsc w n))
    (hzero : W.lib.ofInt 0 = 0) (hunit : W.lib.ofInt 1 = 1) (float : Str → Option ℝ)
    {line : List Str} (l : Line CommandLine.legacy.opts line) {k : CommandLine.Call} (hk : Enough CommandLine.legacy l.events l.args)
    (hk' : Called CommandLine.legacy l.events l.args k) {O : Str} (hargs : l.args = [O]) {q : Asked} (hq : Asks float l.events q) (hus : q.Usable) (hnaive : q.naive = false)
    {g : GtaVariant} (hg : Variant g) (hmethod : q.method = g.name) {rs : List Ref} (hrs : Stand (listed q.merge q.base) rs)
    {B : Str} {b : Ref} (hB : q.base = some B) (hb : ModelRef.parse B = .ok b)
    (hne : rs ≠ []) (honce : rs.Nodup) (hplain : ∀ r ∈ b :: rs, r.Plain)
    {w : Ref → ℝ} (hw : ∀ i r, rs[i]? = some r → r ≠ b → valueAt q.weight i = some (w r))
    {f : Family ℝ} (hf : ∀ c, ConfSays W.lib q.document c → W.family c = some f) (hs : IsShipped f)
    (hlayers : ∀ r ∈ b :: rs, ∀ n ∈ f.modules.map Prod.fst, f.layers r n = f.outLayers n)
    {ws : List Arch.WeightInfo} (hws : Arch.allWeights f.pairs = .ok ws) (own : Ref → Str → Tensor.Tensor ℝ)
    (hown : ∀ v ∈ ws, Present f (b :: rs) v →
      (∀ r ∈ b :: rs, (LoadTask.wanted (if q.bf16 then some "bfloat16" else none) (Shipped.listed v)).execute W.casts (W.loaders r) = .ok (some (own r v.name)) ∧
        (own r v.name).shape = (own b v.name).shape) ∧
      (WholeMerge.storedType none (Shipped.listed v) = none ∨ ∃ n t, WholeMerge.storedType none (Shipped.listed v) = some n ∧ (n, t) ∈ LoadTask.typeNames) ∧
      ∀ i r, rs[i]? = some r → r ≠ b → Doable (own b v.name).shape ⟨w r, (valueAt q.density i).getD 1, 1 / 100, 15 / 100⟩ g.sparsification) :
    ∃ p, legacyMain W float line = .ok p ∧ p.out = O ∧ p.options = k.merge ∧ W.family p.conf = some f ∧
      Merges (p.family f) p.conf.toConfig ws (b :: rs) (p.setup W) (fun v z => ∃ y, WholeMerge.Stored (p.setup W) (Shipped.listed v) y z ∧
        y.shape = (own b v.name).shape ∧ ∃ parts : List (ℝ × Tensor.Tensor ℝ),
          List.Forall₂ (fun e x => x.1 = w e.1 ∧
            Trimmed (W.chance.tools.sample v.name e.1) ⟨w e.1, (valueAt q.density e.2).getD 1, 1 / 100, 15 / 100⟩ g.rescale (Merge.diff (own e.1 v.name) (own b v.name)) x.2 g.sparsification)
            (rs.zipIdx.filter (fun e => decide (e.1 ≠ b))) parts ∧
          ∀ i, ∃ delta, Combined q.normalize 1 (parts.map (fun x => (x.1, x.2.get i))) g.consensus delta ∧ y.get i = (own b v.name).get i + delta) := by
  have hslerp : q.method ≠ cs!"slerp" := by rw [hmethod]; exact variant_not_slerp hg
  obtain ⟨a1, a2, a3⟩ := all_lookup q W.lib hslerp
  have hbase : Maybe RefSays (q.document.lookup cs!"base_model") (some b) := by
    have : q.document.lookup cs!"base_model" = some (match q.base with
      | none => .null
      | some b => .str b) := rfl
    rw [this, hB]
    exact .given (by simp) (.text hb)
  have hd := document_plain W.lib q hnaive hrs hbase
  have hfst : (rs.zipIdx.map (fun e => (e.1, q.params e.2))).map Prod.fst = rs := by
    rw [List.map_map]
    exact zipIdx_fst rs
  obtain ⟨c, hc, hmm, hdt, hot, hms, hsl, hmo, hbm, hpar, htk, hts⟩ := plain_says hd (by simpa using hne)
  have hread : read W.lib (.dict q.document) = .ok c := C130_accepts (.none rfl) hc
  have hget : getMethod W.chance c.mergeMethod = some ⟨g.name, g.params, g.tensorParams, gtaMethod g W.chance.tools⟩ := by
    rw [hmm, hmethod]
    exact WholeMerge.getMethod_mem W.chance ⟨g.name, _, _, _⟩ (WholeMerge.mem_static _ _ (List.mem_append_right _ (List.mem_map.2 ⟨g, variant_mem hg, rfl⟩)))
  have hmain := (C137_main W float l ⟨k.merge, O, [], c, _⟩).2 ⟨k, q, hk, hk', hargs, rfl, rfl, hq, hus, hread, hget⟩
  refine ⟨_, hmain, rfl, rfl, hf c hc, ?_⟩
  have hat : ∀ e ∈ rs.zipIdx, rs[e.2]? = some e.1 := fun e he => List.mem_zipIdx_iff_getElem?.1 he
  have key := Shipped.C119_task_arithmetic g W.chance.tools hdesc hasc (Prepared.family ⟨k.merge, O, [], c, ⟨g.name, g.params, g.tensorParams, gtaMethod g W.chance.tools⟩⟩ f)
    ⟨hs.definition, hs.not_bert, hs.names⟩ rfl rfl c.toConfig b _ _ ⟨hms, hsl, hbm, hpar, by simpa using hne, by rw [hfst]; exact honce⟩ (by rw [hfst]; exact hplain)
    (by rw [hfst]; exact hlayers) ws hws
    (Prepared.setup ⟨k.merge, O, [], c, ⟨g.name, g.params, g.tensorParams, gtaMethod g W.chance.tools⟩⟩ W) rfl own w
    (by
      intro e he hne
      obtain ⟨x, hx, rfl⟩ := List.mem_map.1 he
      unfold said
      have : (q.params x.2).lookup "weight".toList = valueAt q.weight x.2 := params_weight q hslerp x.2
      simp only
      rw [this, hw x.2 x.1 (hat x hx) hne]
      rfl)
    q.mask q.normalize g.rescale
    (by
      unfold Switch
      have : (q.all W.lib).lookup "int8_mask".toList = _ := a2
      rw [this]
      cases q.mask
      · exact Or.inl ⟨rfl, rfl⟩
      · exact Or.inr (by simp [hunit]))
    (by
      unfold Switch
      have : (q.all W.lib).lookup "normalize".toList = _ := a1
      rw [this]
      cases q.normalize
      · exact Or.inr (by simp [hzero])
      · exact Or.inr (by simp [hunit]))
    (Or.inl ⟨a3 _ (by decide) (by decide), rfl⟩)
    (by
      rw [hfst]
      intro v hv hp
      obtain ⟨g1, g2, g3⟩ := hown v hv hp
      refine ⟨?_, ?_, ?_⟩
      · intro r hr
        have := g1 r hr
        have e : (Prepared.setup ⟨k.merge, O, [], c, ⟨g.name, g.params, g.tensorParams, gtaMethod g W.chance.tools⟩⟩ W).dtype = if q.bf16 then some "bfloat16" else none := by
          unfold Prepared.setup
          simp only [hdt]
          cases q.bf16 <;> rfl
        rw [e]
        exact this
      · have e : (Prepared.setup ⟨k.merge, O, [], c, ⟨g.name, g.params, g.tensorParams, gtaMethod g W.chance.tools⟩⟩ W).outDtype = none := by
          unfold Prepared.setup
          simp only [hot]
          rfl
        rw [e]
        exact g2
      · intro e he hne
        obtain ⟨x, hx, rfl⟩ := List.mem_map.1 he
        simp only at hne ⊢
        rw [numbers_eq q W.lib hslerp]
        exact g3 x.2 x.1 (hat x hx) hne)
  rw [hfst] at key
  intro group prio pop conf size hstd
  obtain ⟨mods, h1, trace, h2, fs, h3, h4, idx, h5, h6, h7⟩ := key group prio pop conf size hstd
  refine ⟨mods, h1, trace, h2, fs, h3, h4, idx, h5, h6, ?_⟩
  intro v hv hp
  obtain ⟨z, ⟨y, y1, y2, parts, y3, y4⟩, h8⟩ := h7 v hv hp
  refine ⟨z, ⟨y, y1, y2, parts, ?_, ?_⟩, h8⟩
  · rw [List.filter_map, List.forall₂_map_left_iff] at y3
    refine y3.imp ?_
    rintro e x ⟨x1, x2⟩
    simp only at x1 x2
    rw [numbers_eq q W.lib hslerp] at x2
    exact ⟨x1, x2⟩
  · intro i
    have : (q.all W.lib).lookup "lambda".toList = none := a3 _ (by decide) (by decide)
    have := y4 i
    rw [a3 "lambda".toList (by decide) (by decide)] at this
    exact this

/-- **C137** A linear merge with `mergekit-legacy`, from the command line to the files: without a base model, with a weight for every model.  The merge succeeds and leaves exactly the
weights of the architecture, each the weighted sum of the models' tensors, divided by the sum of the weights unless `--no-normalize` is given. -/
theorem C137_linear (W : World) (hzero : W.lib.ofInt 0 = 0) (hunit : W.lib.ofInt 1 = 1) (float : Str → Option ℝ)
    {line : List Str} (l : Line CommandLine.legacy.opts line) {k : CommandLine.Call} (hk : Enough CommandLine.legacy l.events l.args)
    (hk' : Called CommandLine.legacy l.events l.args k) {O : Str} (hargs : l.args = [O]) {q : Asked} (hq : Asks float l.events q) (hus : q.Usable) (hnaive : q.naive = false)
    (hmethod : q.method = cs!"linear") (hB : q.base = none) {rs : List Ref} (hrs : Stand q.merge rs)
    (hne : rs ≠ []) (honce : rs.Nodup) (hplain : ∀ r ∈ rs, r.Plain)
    {w : Ref → ℝ} (hw : ∀ i r, rs[i]? = some r → valueAt q.weight i = some (w r)) (htot : q.normalize = true → (rs.map w).sum ≠ 0)
    {f : Family ℝ} (hf : ∀ c, ConfSays W.lib q.document c → W.family c = some f) (hs : IsShipped f)
    (hlayers : ∀ r ∈ rs, ∀ n ∈ f.modules.map Prod.fst, f.layers r n = f.outLayers n)
    {ws : List Arch.WeightInfo} (hws : Arch.allWeights f.pairs = .ok ws) (own : Ref → Str → Tensor.Tensor ℝ)
    (hown : ∀ v ∈ ws, Present f rs v →
      (∀ r ∈ rs, (LoadTask.wanted (if q.bf16 then some "bfloat16" else none) (Shipped.listed v)).execute W.casts (W.loaders r) = .ok (some (own r v.name))) ∧
      (∃ sh, ∀ r ∈ rs, (own r v.name).shape = sh) ∧
      (WholeMerge.storedType none (Shipped.listed v) = none ∨ ∃ n t, WholeMerge.storedType none (Shipped.listed v) = some n ∧ (n, t) ∈ LoadTask.typeNames)) :
    ∃ p, legacyMain W float line = .ok p ∧ p.out = O ∧ p.options = k.merge ∧ W.family p.conf = some f ∧
      Merges (p.family f) p.conf.toConfig ws rs (p.setup W) (fun v z => ∃ y, WholeMerge.Stored (p.setup W) (Shipped.listed v) y z ∧
        (∀ r ∈ rs, y.shape = (own r v.name).shape) ∧
        ∀ i, y.get i * (if q.normalize then (rs.map w).sum else 1) = (rs.map (fun r => w r * (own r v.name).get i)).sum) := by
  have hslerp : q.method ≠ cs!"slerp" := by rw [hmethod]; decide
  obtain ⟨a1, a2, a3⟩ := all_lookup q W.lib hslerp
  have hbase : Maybe RefSays (q.document.lookup cs!"base_model") none := by
    have : q.document.lookup cs!"base_model" = some (match q.base with
      | none => .null
      | some b => .str b) := rfl
    rw [this, hB]
    exact .null
  have hrs' : Stand (listed q.merge q.base) rs := by rw [hB]; exact hrs
  have hd := document_plain W.lib q hnaive hrs' hbase
  obtain ⟨c, hc, hmm, hdt, hot, hms, hsl, hmo, hbm, hpar, htk, hts⟩ := plain_says hd (by simpa using hne)
  have hread : read W.lib (.dict q.document) = .ok c := C130_accepts (.none rfl) hc
  have hget : getMethod W.chance c.mergeMethod = some ⟨"linear".toList, [⟨"normalize".toList, false, some (WholeMerge.flag true)⟩], [⟨"weight".toList, true, none⟩], WholeMerge.linearTask⟩ := by
    rw [hmm, hmethod]
    exact WholeMerge.getMethod_mem W.chance ⟨"linear".toList, _, _, _⟩ (WholeMerge.mem_static _ _ (by simp [WholeMerge.staticMethods]))
  have hmain := (C137_main W float l ⟨k.merge, O, [], c, _⟩).2 ⟨k, q, hk, hk', hargs, rfl, rfl, hq, hus, hread, hget⟩
  refine ⟨_, hmain, rfl, rfl, hf c hc, ?_⟩
  have hat : ∀ e ∈ rs.zipIdx, rs[e.2]? = some e.1 := fun e he => List.mem_zipIdx_iff_getElem?.1 he
  rw [List.map_map] at hms
  generalize hmsd : rs.zipIdx.map ((fun e => (⟨e.1, numbered e.2⟩ : Config.InModel ℝ)) ∘ fun e => (e.1, q.params e.2)) = ms at hms
  have hfst : ms.map (·.model) = rs := by
    rw [← hmsd, List.map_map]
    exact zipIdx_fst rs
  have hmem : ∀ m ∈ ms, m.model ∈ rs := fun m hm => hfst ▸ List.mem_map.2 ⟨m, hm, rfl⟩
  have hback : ∀ g : Ref → ℝ, ms.map (fun m => g m.model) = rs.map g := fun g => by
    rw [← hfst, List.map_map]; rfl
  have hsimple : WholeMerge.Simple c.toConfig ms w q.normalize := by
    refine ⟨hms, hsl, hbm, ?_, ?_, by rw [hfst]; exact honce, ?_⟩
    · rw [hpar]
      have : (numbered (q.all W.lib)).get "normalize".toList = some (.scalar (.num (W.lib.ofInt (if q.normalize then 1 else 0)))) := by
        rw [Shipped.get_numbered]
        have : (q.all W.lib).lookup "normalize".toList = _ := a1
        rw [this]
        rfl
      rw [this]
      cases q.normalize
      · simp only [Bool.false_eq_true, if_false, hzero]
        exact .off
      · simp only [if_true, hunit]
        exact .on 1 one_ne_zero
    · intro h0
      rw [h0] at hfst
      exact hne hfst.symm
    · intro m hm
      rw [← hmsd] at hm
      obtain ⟨e, he, rfl⟩ := List.mem_map.1 hm
      show (numbered (q.params e.2)).get "weight".toList = _
      rw [Shipped.get_numbered]
      have : (q.params e.2).lookup "weight".toList = _ := params_weight q hslerp e.2
      rw [this, hw e.2 e.1 (hat e he)]
      rfl
  have key := Shipped.C119_linear (Prepared.family ⟨k.merge, O, [], c,
      ⟨"linear".toList, [⟨"normalize".toList, false, some (WholeMerge.flag true)⟩], [⟨"weight".toList, true, none⟩], WholeMerge.linearTask⟩⟩ f) ⟨hs.definition, hs.not_bert, hs.names⟩
    ⟨by simp [Prepared.family, Family.env, WholeMerge.flag], rfl⟩ c.toConfig ms w q.normalize hsimple (fun m hm => hplain _ (hmem m hm)) (fun m hm => hlayers _ (hmem m hm))
    ws hws (Prepared.setup ⟨k.merge, O, [], c, ⟨"linear".toList, [⟨"normalize".toList, false, some (WholeMerge.flag true)⟩], [⟨"weight".toList, true, none⟩], WholeMerge.linearTask⟩⟩ W) rfl own
    (by
      rw [hfst]
      intro v hv hp
      obtain ⟨g1, ⟨sh, g2⟩, g3⟩ := hown v hv hp
      refine ⟨fun m hm => ?_, ⟨sh, fun m hm => g2 _ (hmem m hm)⟩, ?_⟩
      · have := g1 _ (hmem m hm)
        have e : (Prepared.setup ⟨k.merge, O, [], c, ⟨"linear".toList, [⟨"normalize".toList, false, some (WholeMerge.flag true)⟩], [⟨"weight".toList, true, none⟩], WholeMerge.linearTask⟩⟩ W).dtype =
            if q.bf16 then some "bfloat16" else none := by
          unfold Prepared.setup
          simp only [hdt]
          cases q.bf16 <;> rfl
        rw [e]
        exact this
      · have e : (Prepared.setup ⟨k.merge, O, [], c, ⟨"linear".toList, [⟨"normalize".toList, false, some (WholeMerge.flag true)⟩], [⟨"weight".toList, true, none⟩], WholeMerge.linearTask⟩⟩ W).outDtype = none := by
          unfold Prepared.setup
          simp only [hot]
          rfl
        rw [e]
        exact g3)
    (by rw [hback]; exact htot)
  rw [hfst] at key
  intro group prio pop conf size hstd
  obtain ⟨mods, h1, trace, h2, fs, h3, h4, idx, h5, h6, h7⟩ := key group prio pop conf size hstd
  refine ⟨mods, h1, trace, h2, fs, h3, h4, idx, h5, h6, ?_⟩
  intro v hv hp
  obtain ⟨z, ⟨y, y1, y2, y3⟩, h8⟩ := h7 v hv hp
  refine ⟨z, ⟨y, y1, ?_, ?_⟩, h8⟩
  · intro r hr
    rw [← hfst] at hr
    obtain ⟨m, hm, rfl⟩ := List.mem_map.1 hr
    exact y2 m hm
  intro i
  have := y3 i
  unfold WholeTok.Mixed at this
  simp only [List.map_map] at this
  have e1 : ms.map (Prod.fst ∘ fun m => (w m.model, (own m.model v.name).get i)) = rs.map w := hback w
  have e2 : ms.map ((fun e : ℝ × ℝ => e.1 * e.2) ∘ fun m => (w m.model, (own m.model v.name).get i)) = rs.map (fun r => w r * (own r v.name).get i) :=
    hback (fun r => w r * (own r v.name).get i)
  rw [e1, e2] at this
  by_cases hz : q.normalize = true
  · rw [if_pos hz] at this ⊢
    exact this
  · rw [if_neg hz] at this ⊢
    rw [mul_one]
    exact this

/-- The methods that require a weight of every model. -/
inductive Weighs : Str → Prop
  | linear : Weighs cs!"linear"
  | task {g : GtaVariant} : Variant g → Weighs g.name

theorem forall₂_find {A B : Type} {R : A → B → Prop} {l : List A} {r : List B} (h : List.Forall₂ R l r) {a : A} (ha : a ∈ l) : ∃ b ∈ r, R a b := by
  induction h with
  | nil => cases ha
  | cons h _ ih =>
    rcases List.mem_cons.1 ha with rfl | ha
    · exact ⟨_, List.mem_cons_self, h⟩
    · obtain ⟨b, hb, hr⟩ := ih ha
      exact ⟨b, List.mem_cons_of_mem _ hb, hr⟩

/-- In a document that is accepted, every model named is one. -/
theorem document_stand {L : Lib ℝ} {q : Asked} {c : Conf ℝ} (hc : ConfSays L q.document c) : ∃ rs, Stand (listed q.merge q.base) rs := by
  have hm := hc.models
  have : q.document.lookup cs!"models" = some (.list ((listed q.merge q.base).zipIdx.map (fun m => .dict [(cs!"model", .str m.1), (cs!"parameters", .dict ((q.params m.2).map (fun e => (e.1, .float e.2))))]))) := rfl
  rw [this] at hm
  generalize c.models = x at hm
  cases hm with
  | given _ hm =>
    cases hm with
    | mk hm =>
      rw [List.forall₂_map_left_iff] at hm
      have : ∀ (l : List (Str × Nat)) (as : List (Document.InModel ℝ)), List.Forall₂ (fun m a => ModelSays L (.dict [(cs!"model", .str m.1), (cs!"parameters", .dict ((q.params m.2).map (fun e => (e.1, .float e.2))))]) a) l as →
          ∃ rs, Stand (l.map Prod.fst) rs := by
        intro l as h
        induction h with
        | nil => exact ⟨[], .nil⟩
        | cons h _ ih =>
          obtain ⟨rs, hrs⟩ := ih
          cases h with
          | mk h1 _ =>
            obtain ⟨v, hv, h1⟩ := h1
            cases hv
            cases h1 with
            | text h1 => exact ⟨_ :: rs, .cons h1 hrs⟩
      obtain ⟨rs, hrs⟩ := this _ _ hm
      rw [zipIdx_fst] at hrs
      exact ⟨rs, hrs⟩

/-- **C137** There is no default for weights (the help says 1.0): without `--weight`, a merge by one of the methods that need weights fails before anything is written. -/
theorem C137_no_weight_fails (W : World) (hcount : W.lib.strFloat cs!"count" = none) (float : Str → Option ℝ) {line : List Str} (l : Line CommandLine.legacy.opts line) {p : Prepared}
    (h : legacyMain W float line = .ok p) (hweight : valuesOf (several cs!"weight" cs!"weight") l.events = [])
    (hmethod : Weighs ((valuesOf (one cs!"method" cs!"method") l.events).getLast?.getD cs!"ties"))
    {s : Str} (hs : s ∈ valuesOf (several cs!"merge" cs!"merge") l.events) {r : Ref} (hr : ModelRef.parse s = .ok r)
    (hb : ∀ B, (valuesOf (one cs!"base_model" cs!"base-model") l.events).getLast? = some B → ModelRef.parse B ≠ .ok r)
    (f : Family ℝ) {n : String} (hn : n ∈ f.modules.map Prod.fst) {v : LoadTask.WeightInfo} (hv : v ∈ f.env.outPre n ∨ v ∈ f.env.outPost n) (hopt : v.optional = false)
    (mods : List (Plan.ModulePlan ℝ)) : Plan.plan (p.family f).env p.conf.toConfig ≠ .ok mods := by
  have hnn := C137_naive_count_fails W hcount float l
  obtain ⟨k, q, -, -, -, -, -, hq, hus, hread, hget⟩ := (C137_main W float l p).1 h
  have hw : q.weight = [] := by
    have := hq.weight
    rw [hweight] at this
    exact List.forall₂_nil_left_iff.1 this
  rw [hq.method] at hmethod
  rw [hq.merge] at hs
  rw [hq.base] at hb
  have hslerp : q.method ≠ cs!"slerp" := by
    generalize q.method = m at hmethod
    cases hmethod with
    | linear => decide
    | task hg => exact variant_not_slerp hg
  have hnaive : q.naive = false := by
    cases hm : (marksOf (yesNo cs!"naive_count" cs!"naive-count") l.events).getLast? with
    | none => rw [← hq.naive, hm]; rfl
    | some x =>
      cases x with
      | false => rw [← hq.naive, hm]; rfl
      | true => exact absurd h (hnn hm p)
  have hc := C130_reads hread
  obtain ⟨rs, hrs⟩ := document_stand hc
  have hsl : s ∈ listed q.merge q.base := by
    unfold listed
    cases q.base with
    | none => exact hs
    | some b =>
      dsimp only
      split
      · exact hs
      · exact List.mem_append_left _ hs
  have hrr : r ∈ rs := by
    obtain ⟨r', hr', he⟩ := forall₂_find hrs hsl
    rw [hr] at he
    cases he
    exact hr'
  obtain ⟨a1, a2, a3⟩ := all_lookup q W.lib hslerp
  obtain ⟨c, hc', hmm, -, -, hms, hsli, -, hbm, hpar, -, -⟩ := plain_says (document_plain W.lib q hnaive hrs hc.baseModel) (by
    intro h0
    rw [List.map_eq_nil_iff, List.zipIdx_eq_nil_iff] at h0
    rw [h0] at hrr
    cases hrr)
  have hcc : c = p.conf := by
    have := C130_accepts (.none rfl) hc'
    rw [hread] at this
    exact (Except.ok.inj this).symm
  subst hcc
  have hneed : ∃ t, getMethod W.chance p.conf.mergeMethod = some t ∧ (⟨"weight".toList, true, none⟩ : Plan.ParamDef ℝ) ∈ t.tensorParams := by
    rw [hmm]
    generalize q.method = m at hmethod
    cases hmethod with
    | linear => exact ⟨_, WholeMerge.getMethod_mem W.chance ⟨"linear".toList, [⟨"normalize".toList, false, some (WholeMerge.flag true)⟩], [⟨"weight".toList, true, none⟩], WholeMerge.linearTask⟩
        (WholeMerge.mem_static _ _ (by simp [WholeMerge.staticMethods])), List.mem_singleton.2 rfl⟩
    | @task g hg =>
      exact ⟨_, WholeMerge.getMethod_mem W.chance ⟨g.name, _, _, _⟩ (WholeMerge.mem_static _ _ (List.mem_append_right _ (List.mem_map.2 ⟨g, variant_mem hg, rfl⟩))), WholeMerge.mem_weight g⟩
  obtain ⟨t, ht, htw⟩ := hneed
  rw [hget] at ht
  cases ht
  obtain ⟨i, hi⟩ := List.mem_iff_getElem?.1 hrr
  have hnone : ∀ i, (numbered (q.params i)).get "weight".toList = none := by
    intro i
    rw [Shipped.get_numbered]
    have : (q.params i).lookup "weight".toList = valueAt q.weight i := params_weight q hslerp i
    rw [this, hw]
    rfl
  refine Plan.C22_required_fails (p.family f).env p.conf.toConfig _ hms hsli hn hv hopt (d := ⟨"weight".toList, true, none⟩) htw rfl (m := ⟨r, numbered (q.params i)⟩)
    (List.mem_map.2 ⟨(r, q.params i), List.mem_map.2 ⟨(r, i), List.mem_zipIdx_iff_getElem?.2 hi, rfl⟩, rfl⟩) ?_ ?_ ?_ mods
  · intro he
    rw [hbm] at he
    have hx := hc.baseModel
    have : q.document.lookup cs!"base_model" = some (match q.base with
      | none => .null
      | some b => .str b) := rfl
    rw [this, he] at hx
    cases hB : q.base with
    | none => rw [hB] at hx; cases hx with | given h0 _ => exact h0 rfl
    | some B =>
      rw [hB] at hx
      cases hx with
      | given _ h => cases h with | text h => exact hb B hB h
  · intro x hx _
    obtain ⟨y, hy, rfl⟩ := List.mem_map.1 hx
    obtain ⟨z, hz, rfl⟩ := List.mem_map.1 hy
    exact hnone z.2
  · rw [hpar, Shipped.get_numbered]
    have : (q.all W.lib).lookup "weight".toList = none := a3 _ (by decide) (by decide)
    simp only
    rw [this]
    rfl

/-- `mergekit-legacy o --merge b --base-model a`. -/
def barrenLine : Line CommandLine.legacy.opts [cs!"o", cs!"--merge", cs!"b", cs!"--base-model", cs!"a"] where
  uses := [.plain cs!"o", .next (several cs!"merge" cs!"merge") cs!"--merge" cs!"b", .next (one cs!"base_model" cs!"base-model") cs!"--base-model" cs!"a"]
  after := none
  fits := by
    intro u hu
    simp only [List.mem_cons, List.not_mem_nil, or_false] at hu
    rcases hu with rfl | rfl | rfl
    · exact show ¬ _ by decide
    all_goals exact ⟨by decide +kernel, by decide +kernel, by decide +kernel, by decide +kernel⟩
  written := by decide +kernel

/-- All hypotheses are met: a merge of two Llama models is prepared and then fails. -/
example (ch : WholeMerge.Chance) (lib : Lib ℝ) (hcount : lib.strFloat cs!"count" = none) (float : Str → Option ℝ) :
    ∃ p, legacyMain (tiesWorld ch lib) float [cs!"o", cs!"--merge", cs!"b", cs!"--base-model", cs!"a"] = .ok p ∧
      ∀ mods, Plan.plan (p.family llama).env p.conf.toConfig ≠ .ok mods := by
  have hpa : ModelRef.parse cs!"a" = .ok a := by decide +kernel
  have hpb : ModelRef.parse cs!"b" = .ok b := by decide +kernel
  have hmain : ∃ p, legacyMain (tiesWorld ch lib) float [cs!"o", cs!"--merge", cs!"b", cs!"--base-model", cs!"a"] = .ok p := by
    obtain ⟨k, hk⟩ : ∃ k, CommandLine.call CommandLine.legacy [cs!"o", cs!"--merge", cs!"b", cs!"--base-model", cs!"a"] = .ok k := ⟨_, rfl⟩
    obtain ⟨h1, h2⟩ := (CommandLine.C128_call legacy_mem barrenLine k).1 hk
    have hrs : Stand (listed [cs!"b"] (some cs!"a")) [b, a] := .cons hpb (.cons hpa .nil)
    obtain ⟨c, hc, hmm, -⟩ := plain_says (document_plain (tiesWorld ch lib).lib ⟨[cs!"b"], some cs!"a", [], [], cs!"ties", true, false, false, false⟩ rfl hrs (base := some a)
      (.given (by simp) (.text hpa))) (by simp)
    have hget := WholeMerge.getMethod_mem (tiesWorld ch lib).chance ⟨cs!"ties", _, _, _⟩ (WholeMerge.mem_static _ _ (List.mem_append_right _ (List.mem_map.2 ⟨_, variant_mem .ties, rfl⟩)))
    have hmeth : c.mergeMethod = cs!"ties" := hmm
    have hargs : barrenLine.args = [cs!"o"] := by decide +kernel
    refine ⟨⟨k.merge, cs!"o", [], c, _⟩, (C137_main (tiesWorld ch lib) float barrenLine _).2 ⟨k, _, h1, h2, hargs, rfl, rfl, ?_, ?_, C130_accepts (.none rfl) hc, by rw [hmeth]; exact hget⟩⟩
    · have e1 : valuesOf (several cs!"density" cs!"density") barrenLine.events = [] := by decide +kernel
      have e2 : valuesOf (several cs!"weight" cs!"weight") barrenLine.events = [] := by decide +kernel
      exact ⟨by decide +kernel, by rw [e1]; exact .nil, by rw [e2]; exact .nil, by decide +kernel, by decide +kernel, by decide +kernel, by decide +kernel, by decide +kernel, by decide +kernel⟩
    · refine ⟨?_, ?_⟩
      · simp [fits]
      · rw [if_neg (by decide)]; simp [fits]
  obtain ⟨p, hp⟩ := hmain
  refine ⟨p, hp, fun mods => ?_⟩
  obtain ⟨v, hv, hopt⟩ : ∃ v ∈ llama.env.outPre "default", v.optional = false := by decide +kernel
  refine C137_no_weight_fails (tiesWorld ch lib) hcount float barrenLine hp (by decide +kernel) ?_ (s := cs!"b") (r := b) (by decide +kernel) hpb ?_ llama
    (n := "default") (by decide +kernel) (Or.inl hv) hopt mods
  · have : (valuesOf (one cs!"method" cs!"method") barrenLine.events).getLast?.getD cs!"ties" = cs!"ties" := by decide +kernel
    rw [this]
    exact .task .ties
  · intro B hB
    have : (valuesOf (one cs!"base_model" cs!"base-model") barrenLine.events).getLast? = some cs!"a" := by decide +kernel
    rw [this] at hB
    cases hB
    rw [hpa]
    decide +kernel

/-! ## A concrete case: TIES on three Llama models -/

/-- `mergekit-legacy o --merge b --merge c --base-model a --weight 1 --weight 3 --density 0.5`. -/
def legacyLine : Line CommandLine.legacy.opts [cs!"o", cs!"--merge", cs!"b", cs!"--merge", cs!"c", cs!"--base-model", cs!"a", cs!"--weight", cs!"1", cs!"--weight", cs!"3",
    cs!"--density", cs!"0.5"] where
  uses := [.plain cs!"o", .next (several cs!"merge" cs!"merge") cs!"--merge" cs!"b", .next (several cs!"merge" cs!"merge") cs!"--merge" cs!"c",
    .next (one cs!"base_model" cs!"base-model") cs!"--base-model" cs!"a", .next (several cs!"weight" cs!"weight") cs!"--weight" cs!"1",
    .next (several cs!"weight" cs!"weight") cs!"--weight" cs!"3", .next (several cs!"density" cs!"density") cs!"--density" cs!"0.5"]
  after := none
  fits := by
    intro u hu
    simp only [List.mem_cons, List.not_mem_nil, or_false] at hu
    rcases hu with rfl | rfl | rfl | rfl | rfl | rfl | rfl
    · exact show ¬ _ by decide
    all_goals exact ⟨by decide +kernel, by decide +kernel, by decide +kernel, by decide +kernel⟩
  written := by decide +kernel

/-- `float` on the numbers of the line. -/
noncomputable def someFloat (s : Str) : Option ℝ := if s = cs!"1" then some 1 else if s = cs!"3" then some 3 else if s = cs!"0.5" then some (1 / 2) else none

/-- What that line asks for. -/
noncomputable def legacyAsked : Asked where
  merge := [cs!"b", cs!"c"]
  base := some cs!"a"
  density := [1 / 2]
  weight := [1, 3]
  method := cs!"ties"
  normalize := true
  mask := false
  bf16 := false
  naive := false

theorem legacy_asks : Asks someFloat legacyLine.events legacyAsked where
  merge := by decide +kernel
  density := by
    have : valuesOf (several cs!"density" cs!"density") legacyLine.events = [cs!"0.5"] := by decide +kernel
    rw [this]
    exact .cons (by simp [someFloat]) .nil
  weight := by
    have : valuesOf (several cs!"weight" cs!"weight") legacyLine.events = [cs!"1", cs!"3"] := by decide +kernel
    rw [this]
    exact .cons (by simp [someFloat]) (.cons (by simp [someFloat]) .nil)
  method := by decide +kernel
  base := by decide +kernel
  normalize := by decide +kernel
  mask := by decide +kernel
  bf16 := by decide +kernel
  naive := by decide +kernel

/-- All hypotheses are met; of the changes (8, 1) and (-7, -2) the larger entries are kept, 1 * 8 and 3 * -7 disagree, the latter wins, and in the end each weight is (2 - 7, 2). -/
theorem legacy_case (ch : WholeMerge.Chance) (hdesc : ∀ w n, SortsDesc w n (ch.tools.sortDesc w n)) (hasc : ∀ w n, SortsAsc w n (ch.tools.sortAsc w n)) (lib : Lib ℝ)
    (hzero : lib.ofInt 0 = 0) (hone : lib.ofInt 1 = 1) :
    ∃ p, legacyMain (tiesWorld ch lib) someFloat [cs!"o", cs!"--merge", cs!"b", cs!"--merge", cs!"c", cs!"--base-model", cs!"a", cs!"--weight", cs!"1", cs!"--weight", cs!"3",
        cs!"--density", cs!"0.5"] = .ok p ∧ p.out = cs!"o" ∧
      Merges (p.family llama) p.conf.toConfig Shipped.llamaWeights [a, b, third, a] (p.setup (tiesWorld ch lib))
        (fun v z => ∃ y, WholeMerge.Stored (p.setup (tiesWorld ch lib)) (Shipped.listed v) y z ∧ y.shape = [2] ∧ y.get 0 = -5 ∧ y.get 1 = 2) := by
  have hcall : ∃ k, CommandLine.call CommandLine.legacy [cs!"o", cs!"--merge", cs!"b", cs!"--merge", cs!"c", cs!"--base-model", cs!"a", cs!"--weight", cs!"1", cs!"--weight", cs!"3",
        cs!"--density", cs!"0.5"] = .ok k := ⟨_, rfl⟩
  obtain ⟨k, hk⟩ := hcall
  obtain ⟨h1, h2⟩ := (CommandLine.C128_call (by simp [CommandLine.commands]) legacyLine k).1 hk
  have hforce : ∀ v ∈ Shipped.llamaWeights, v.forceDtype = none ∧ v.name ≠ [] := by decide +kernel
  have hba : b ≠ a := by decide +kernel
  have hca : third ≠ a := by decide +kernel
  have hcb : third ≠ b := by decide +kernel
  have hval : ∀ i r, [b, third, a][i]? = some r → valueAt legacyAsked.density i = some (1 / 2) ∧ (r ≠ a → valueAt legacyAsked.weight i = some (if r = b then 1 else 3)) := by
    intro i r hi
    match i with
    | 0 => cases hi; exact ⟨rfl, fun _ => by rw [if_pos rfl]; rfl⟩
    | 1 => cases hi; exact ⟨rfl, fun _ => by rw [if_neg hcb]; rfl⟩
    | 2 => cases hi; exact ⟨rfl, fun h => absurd rfl h⟩
    | i + 3 => simp at hi
  obtain ⟨p, q1, q2, -, -, q3⟩ := C137_task (tiesWorld ch lib) hdesc hasc hzero hone someFloat legacyLine h1 h2 (O := cs!"o") rfl legacy_asks
    (by
      have : (listed legacyAsked.merge legacyAsked.base).length = 3 := rfl
      refine ⟨?_, ?_⟩
      · rw [this]; unfold fits; simp [legacyAsked]
      · rw [if_neg (by decide), this]; unfold fits; simp [legacyAsked])
    rfl .ties rfl (rs := [b, third, a]) (.cons rfl (.cons rfl (.cons rfl .nil))) (B := cs!"a") (b := a) rfl rfl (by simp) (by decide +kernel)
    (by
      intro r hr
      simp only [List.mem_cons, List.not_mem_nil, or_false] at hr
      rcases hr with rfl | rfl | rfl | rfl
      all_goals exact ⟨⟨by unfold ModelRef.NoSep; decide, (by rintro r hr; cases hr)⟩, (by rintro l hl; cases hl), rfl⟩)
    (w := fun r => if r = b then 1 else 3) (fun i r hi => (hval i r hi).2)
    (f := llama) (fun _ _ => rfl) llama_shipped (fun _ _ _ _ => rfl) Shipped.llama_weights (fun r _ => tiesOwn r)
    (by
      intro v hv _
      obtain ⟨hf, hne⟩ := hforce v hv
      refine ⟨?_, Or.inl (by simp [WholeMerge.storedType, Shipped.listed, hf]), ?_⟩
      · intro r _
        refine ⟨?_, rfl⟩
        have hres : (LoadTask.wanted none (Shipped.listed v)).resolve ((tiesWorld ch lib).loaders r) = some (String.ofList v.name) := by
          unfold LoadTask.LoadTensor.resolve
          simp only [LoadTask.wanted, Shipped.listed, List.cons_append, List.find?_cons]
          have : String.ofList v.name ∈ ((tiesWorld ch lib).loaders r).names := List.mem_map.2 ⟨v, hv, rfl⟩
          rw [decide_eq_true this]
        have hne' : String.ofList v.name ≠ "" := by
          intro h
          apply hne
          have := congrArg String.toList h
          simpa using this
        unfold LoadTask.LoadTensor.execute LoadTask.LoadTensor.raw
        have : (if legacyAsked.bf16 then some "bfloat16" else none) = (none : Option String) := rfl
        rw [this, hres]
        simp only [if_neg hne']
        simp only [LoadTask.wanted, Shipped.listed, hf, Option.map_none, true_or, if_true, LoadTask.toDtype, tiesWorld]
      · intro i r hi hea
        rw [(hval i r hi).1]
        refine .largest ?_ ?_
        · norm_num
        · simp [tiesOwn])
  refine ⟨p, q1, q2, ?_⟩
  intro group prio pop conf size hstd
  obtain ⟨mods, h1, trace, h2, fs, h3, h4, idx, h5, h6, h7⟩ := q3 group prio pop conf size hstd
  refine ⟨mods, h1, trace, h2, fs, h3, h4, idx, h5, h6, ?_⟩
  intro v hv hp
  obtain ⟨z, ⟨y, y1, y2, parts, y3, y4⟩, h8⟩ := h7 v hv hp
  have hfil : [b, third, a].zipIdx.filter (fun e => decide (e.1 ≠ a)) = [(b, 0), (third, 1)] := by
    simp [List.zipIdx, hba, hca]
  rw [hfil] at y3
  obtain ⟨x, ps, ⟨e1, x1⟩, hps, rfl⟩ := List.forall₂_cons_left_iff.1 y3
  obtain ⟨x', ps', ⟨e2, x2⟩, hps', rfl⟩ := List.forall₂_cons_left_iff.1 hps
  cases hps'
  obtain ⟨k0, k1⟩ := half_kept x1 rfl rfl (by simp [Merge.diff, tiesOwn, hba]; norm_num)
  obtain ⟨m0, m1⟩ := half_kept x2 rfl rfl (by simp [Merge.diff, tiesOwn, hca, hcb]; norm_num)
  simp only [if_true] at e1
  simp only [if_neg hcb] at e2
  have hd0 : (Merge.diff (tiesOwn b) (tiesOwn a)).get 0 = 8 := by simp [Merge.diff, tiesOwn, hba]; norm_num
  have hd1 : (Merge.diff (tiesOwn third) (tiesOwn a)).get 0 = -7 := by simp [Merge.diff, tiesOwn, hca, hcb]; norm_num
  rw [hd0] at k0
  rw [hd1] at m0
  have hbase : ∀ i, (tiesOwn a).get i = 2 := fun i => by simp [tiesOwn]
  refine ⟨z, ⟨y, y1, y2, ?_, ?_⟩, h8⟩
  · obtain ⟨delta, hdel, hy⟩ := y4 0
    rw [hy, hbase]
    simp only [List.map_cons, List.map_nil, e1, e2, k0, m0] at hdel
    cases hdel with
    | agreeing _ s hel =>
      have hs : s = -1 := by
        cases hel with
        | sumPos h => simp at h; norm_num at h
        | sumNeg _ => rfl
      subst hs
      simp [Merge.agreeing, legacyAsked]
      norm_num
  · obtain ⟨delta, hdel, hy⟩ := y4 1
    rw [hy, hbase]
    simp only [List.map_cons, List.map_nil, k1, m1] at hdel
    cases hdel with
    | agreeing _ s hel =>
      simp [Merge.agreeing]

end Verif.Main
