import Verif.Model.LoraMain
import Verif.Props.MainLegacy
import Verif.Props.LoraRuns
import Verif.Props.LoraResized
import Verif.Props.CardLora

/-! # C140: `mergekit-extract-lora` from the command line to the files -/

namespace Verif.Main

open Verif.ModelRef (Str Ref)
open Verif.CommandLine (Line Enough Called Event meaning valuesOf marksOf settings Setting)
open Verif.Lora (Mat Module Svd Saved extractAny extract decompMat IsSvd Whole Split Decomposed Uniform Plain Apart RankEnough singular Stocked peftLoad)

/-! ## What is claimed -/

/-- An option that must be given. -/
def must (name form : Str) : CommandLine.Opt := { name, kind := .value, on := [cs!"--" ++ form], required := true }

/-- An option that can be given several times, also by a letter. -/
def lettered (name form letter : Str) : CommandLine.Opt := { name, kind := .many, on := [cs!"--" ++ form, letter] }

/-- A flag without a negative. -/
def plainFlag (name form : Str) : CommandLine.Opt := { name, kind := .flag, on := [cs!"--" ++ form] }

/-- What a line of `mergekit-extract-lora` asks for. -/
structure LoraAsked where
  base : Str
  model : Str
  out : Str
  rank : Int
  eps : ℝ
  distribute : Bool
  embed : Bool
  skip : Bool
  save : List Str
  exclude : List Str
  include_ : List Str
  cache : Option Str

/-- Reading it off the options on the line; the rank is 128 and the threshold 0 if nothing is said. -/
structure AsksLora (float : Str → Option ℝ) (es : List Event) (q : LoraAsked) : Prop where
  base : (valuesOf (must cs!"base_model" cs!"base-model") es).getLast? = some q.base
  model : (valuesOf (must cs!"model" cs!"model") es).getLast? = some q.model
  out : (valuesOf (must cs!"out_path" cs!"out-path") es).getLast? = some q.out
  rank : ((valuesOf (one cs!"max_rank" cs!"max-rank") es).getLast? = none ∧ q.rank = 128) ∨
    ∃ s, (valuesOf (one cs!"max_rank" cs!"max-rank") es).getLast? = some s ∧ ModelRef.pyInt s = some q.rank
  eps : ((valuesOf (one cs!"sv_epsilon" cs!"sv-epsilon") es).getLast? = none ∧ q.eps = 0) ∨
    ∃ s, (valuesOf (one cs!"sv_epsilon" cs!"sv-epsilon") es).getLast? = some s ∧ float s = some q.eps
  distribute : (marksOf (yesNo cs!"distribute_scale" cs!"distribute-scale") es).getLast?.getD true = q.distribute
  embed : (marksOf (yesNo cs!"embed_lora" cs!"embed-lora") es).getLast?.getD false = q.embed
  skip : (marksOf (plainFlag cs!"skip_undecomposable" cs!"skip-undecomposable") es).getLast?.getD false = q.skip
  save : valuesOf (several cs!"modules_to_save" cs!"save-module") es = q.save
  exclude : valuesOf (lettered cs!"exclude_regexes" cs!"exclude-regex" cs!"-e") es = q.exclude
  include_ : valuesOf (lettered cs!"include_regexes" cs!"include-regex" cs!"-i") es = q.include_
  cache : (valuesOf (one cs!"lora_merge_cache" cs!"lora-merge-cache") es).getLast? = q.cache

/-- Which modules are asked for: those in which one of the expressions to include is found, if there are any, and none of those to exclude. -/
def LoraAsked.opts (q : LoraAsked) (search : Str → Str → Bool) : Lora.Opts where
  embedLora := q.embed
  skipUndecomposable := q.skip
  included := fun n => decide (q.include_ = [] ∨ ∃ r ∈ q.include_, search r n = true)
  excluded := fun n => decide (∃ r ∈ q.exclude, search r n = true)

/-- The model that is meant: itself, or if there is an adapter with it, the two merged in the directory for that. -/
inductive Meant (W : LoraWorld) (cache : Option Str) (r : Ref) : Ref → Prop
  | plain : r.lora = none → Meant W cache r r
  | merged (c : Str) (r' : Ref) : r.lora ≠ none → cache = some c → c ≠ [] → W.adapted c r = some r' → Meant W cache r r'

/-! ## Reading the options -/

theorem extractLora_mem : CommandLine.extractLora ∈ CommandLine.commands := by simp [CommandLine.commands]

theorem settings_lookup {es : List Event} {rs : List Setting} {m : List (Str × Option CommandLine.FieldVal)}
    (h : List.Forall₂ (fun r e => e.1 = r.name ∧ r.Is es e.2) rs m) (hn : (rs.map Setting.name).Nodup) {r : Setting} (hr : r ∈ rs) :
    ∃ v, m.lookup r.name = some v ∧ r.Is es v := by
  induction h with
  | nil => cases hr
  | @cons r' e rs m h1 h2 ih =>
    rw [List.map_cons, List.nodup_cons] at hn
    rcases List.mem_cons.1 hr with rfl | hr
    · refine ⟨e.2, ?_, h1.2⟩
      rw [List.lookup_cons, h1.1]
      simp
    · obtain ⟨v, hv, hi⟩ := ih hn.2 hr
      refine ⟨v, ?_, hi⟩
      have : r.name ≠ e.1 := fun hc => hn.1 (by rw [← h1.1, ← hc]; exact List.mem_map.2 ⟨r, hr, rfl⟩)
      rw [List.lookup_cons, beq_eq_false_iff_ne.2 this]
      exact hv

theorem textOf_called {c : CommandLine.Command} {es : List Event} {args : List Str} {k : CommandLine.Call} (hk : Called c es args k) (hm : c.merge = true) :
    textOf k cs!"lora_merge_cache" = (valuesOf (one cs!"lora_merge_cache" cs!"lora-merge-cache") es).getLast? := by
  have h := hk.merge
  rw [if_pos hm] at h
  obtain ⟨v, hv, hi⟩ := settings_lookup h (by decide +kernel) (r := ⟨cs!"lora_merge_cache", .str, none, [cs!"--lora-merge-cache"], []⟩) (by simp [settings])
  unfold textOf
  rw [show k.merge.lookup cs!"lora_merge_cache" = some v from hv]
  unfold Setting.Is at hi
  have hopt : (⟨cs!"lora_merge_cache", .str, none, [cs!"--lora-merge-cache"], []⟩ : Setting).opt = one cs!"lora_merge_cache" cs!"lora-merge-cache" := by
    unfold Setting.opt one
    simp
  rw [hopt] at hi
  unfold meaning at hi
  simp only [one] at hi
  unfold one
  cases hl : (valuesOf { name := cs!"lora_merge_cache", kind := .value, on := [cs!"--" ++ cs!"lora-merge-cache"] } es).getLast? with
  | none =>
    rw [hl] at hi
    simp only [Option.map_none] at hi
    rw [hi]
  | some s =>
    rw [hl] at hi
    simp only [Option.map_some] at hi
    rw [hi]

theorem lora_options {es : List Event} {args : List Str} {k : CommandLine.Call} (hk : Called CommandLine.extractLora es args k) :
    wordOf k cs!"base_model" = (valuesOf (must cs!"base_model" cs!"base-model") es).getLast? ∧
    wordOf k cs!"model" = (valuesOf (must cs!"model" cs!"model") es).getLast? ∧
    wordOf k cs!"out_path" = (valuesOf (must cs!"out_path" cs!"out-path") es).getLast? ∧
    wordOf k cs!"max_rank" = (valuesOf (one cs!"max_rank" cs!"max-rank") es).getLast? ∧
    wordOf k cs!"sv_epsilon" = (valuesOf (one cs!"sv_epsilon" cs!"sv-epsilon") es).getLast? ∧
    flagOf k cs!"distribute_scale" true = (marksOf (yesNo cs!"distribute_scale" cs!"distribute-scale") es).getLast?.getD true ∧
    flagOf k cs!"embed_lora" false = (marksOf (yesNo cs!"embed_lora" cs!"embed-lora") es).getLast?.getD false ∧
    flagOf k cs!"skip_undecomposable" false = (marksOf (plainFlag cs!"skip_undecomposable" cs!"skip-undecomposable") es).getLast?.getD false ∧
    wordsOf k cs!"modules_to_save" = valuesOf (several cs!"modules_to_save" cs!"save-module") es ∧
    wordsOf k cs!"exclude_regexes" = valuesOf (lettered cs!"exclude_regexes" cs!"exclude-regex" cs!"-e") es ∧
    wordsOf k cs!"include_regexes" = valuesOf (lettered cs!"include_regexes" cs!"include-regex" cs!"-i") es :=
  ⟨wordOf_called extractLora_mem hk (o := must cs!"base_model" cs!"base-model") (by decide +kernel) rfl,
   wordOf_called extractLora_mem hk (o := must cs!"model" cs!"model") (by decide +kernel) rfl,
   wordOf_called extractLora_mem hk (o := must cs!"out_path" cs!"out-path") (by decide +kernel) rfl,
   wordOf_called extractLora_mem hk (o := one cs!"max_rank" cs!"max-rank") (by decide +kernel) rfl,
   wordOf_called extractLora_mem hk (o := one cs!"sv_epsilon" cs!"sv-epsilon") (by decide +kernel) rfl,
   flagOf_called extractLora_mem hk (o := yesNo cs!"distribute_scale" cs!"distribute-scale") (by decide +kernel) rfl _,
   flagOf_called extractLora_mem hk (o := yesNo cs!"embed_lora" cs!"embed-lora") (by decide +kernel) rfl _,
   flagOf_called extractLora_mem hk (o := plainFlag cs!"skip_undecomposable" cs!"skip-undecomposable") (by decide +kernel) rfl _,
   wordsOf_called extractLora_mem hk (o := several cs!"modules_to_save" cs!"save-module") (by decide +kernel) rfl,
   wordsOf_called extractLora_mem hk (o := lettered cs!"exclude_regexes" cs!"exclude-regex" cs!"-e") (by decide +kernel) rfl,
   wordsOf_called extractLora_mem hk (o := lettered cs!"include_regexes" cs!"include-regex" cs!"-i") (by decide +kernel) rfl⟩

theorem mergedIn_iff {W : LoraWorld} {cache : Option Str} {r r' : Ref} : mergedIn W cache r = some r' ↔ Meant W cache r r' := by
  unfold mergedIn
  constructor
  · intro h
    split at h
    · rename_i hl
      cases h
      exact .plain hl
    · rename_i l hl
      split at h
      · cases h
      · rename_i c
        split at h
        · cases h
        · rename_i hc
          exact .merged c r' (by rw [hl]; simp) rfl hc h
  · intro h
    cases h with
    | plain hl => rw [hl]
    | merged c _ hl hc hne ha =>
      obtain ⟨l, hl⟩ := Option.ne_none_iff_exists'.1 hl
      rw [hl, hc]
      simp only [if_neg hne]
      exact ha

theorem loraOpts_eq {W : LoraWorld} {es : List Event} {args : List Str} {k : CommandLine.Call} (hk : Called CommandLine.extractLora es args k) {q : LoraAsked}
    (hq : AsksLora W.float es q) : loraOpts W k = q.opts W.search := by
  obtain ⟨-, -, -, -, -, -, o7, o8, -, o10, o11⟩ := lora_options hk
  unfold loraOpts LoraAsked.opts foundAny
  rw [o7, o8, o10, o11, hq.embed, hq.skip, hq.exclude, hq.include_]
  congr 1
  · funext n
    rw [Bool.eq_iff_iff]
    simp
  · funext n
    rw [Bool.eq_iff_iff]
    simp

/-- **C140** What a command line leads to: it succeeds exactly if it can be read, both texts name models that can be had, the rank can be used, the extraction succeeds, and the card can be written; the
files are then in the directory asked for, and the configuration names the path of the base model. -/
theorem C140_main (W : LoraWorld) (prog : Str) {line : List Str} (l : Line CommandLine.extractLora.opts line) (r : LoraFiles) :
    loraMain W prog line = .ok r ↔ ∃ k q B M B' M', Enough CommandLine.extractLora l.events l.args ∧ Called CommandLine.extractLora l.events l.args k ∧ AsksLora W.float l.events q ∧
      ModelRef.parse q.base = .ok B ∧ ModelRef.parse q.model = .ok M ∧ Meant W q.cache B B' ∧ Meant W q.cache M M' ∧ (0 ≤ q.rank ∨ q.distribute = true) ∧
      extractAny (W.vocab B') (W.vocab M') (W.arch M') (W.tensors B') (W.tensors M') (decompInt W.svd q.rank q.eps q.distribute) Mat.rows (q.opts W.search) q.save (W.modules M') = .ok r.saved ∧
      Card.loraReadme W.card B M (prog :: line) q.out (W.vocab B') (W.vocab M') = .ok r.readme ∧ r.out = q.out ∧ r.named = B.model.path := by
  constructor
  · intro h
    unfold loraMain at h
    cases hk : CommandLine.call CommandLine.extractLora line with
    | error e => rw [hk] at h; cases h
    | ok k =>
      rw [hk] at h
      simp only at h
      obtain ⟨h1, h2⟩ := (CommandLine.C128_call extractLora_mem l k).1 hk
      obtain ⟨o1, o2, o3, o4, o5, o6, o7, o8, o9, o10, o11⟩ := lora_options h2
      have hreq : ∀ {o : CommandLine.Opt}, o ∈ CommandLine.extractLora.own → o.required = true → o.kind = .value → ∃ s, (valuesOf o l.events).getLast? = some s := by
        intro o ho hr hv
        have := h1.required o ho hr
        unfold meaning at this
        rw [hv] at this
        simp only [ne_eq, Option.map_eq_none_iff] at this
        exact Option.ne_none_iff_exists'.1 this
      obtain ⟨base, hbase⟩ := hreq (o := must cs!"base_model" cs!"base-model") (by decide +kernel) rfl rfl
      obtain ⟨model, hmodel⟩ := hreq (o := must cs!"model" cs!"model") (by decide +kernel) rfl rfl
      obtain ⟨out, hout⟩ := hreq (o := must cs!"out_path" cs!"out-path") (by decide +kernel) rfl rfl
      rw [o1, o2, o3, o6, hbase, hmodel, hout, textOf_called h2 rfl] at h
      simp only [Option.getD_some] at h
      cases hr : rankGiven k with
      | none => rw [hr] at h; cases h
      | some rank =>
        rw [hr] at h
        cases he : epsGiven W k with
        | none => rw [he] at h; cases h
        | some eps =>
          rw [he] at h
          simp only at h
          have hrank : ((valuesOf (one cs!"max_rank" cs!"max-rank") l.events).getLast? = none ∧ rank = 128) ∨
              ∃ s, (valuesOf (one cs!"max_rank" cs!"max-rank") l.events).getLast? = some s ∧ ModelRef.pyInt s = some rank := by
            unfold rankGiven at hr
            rw [o4] at hr
            split at hr
            · rename_i hn
              cases hr
              exact Or.inl ⟨hn, rfl⟩
            · rename_i s hs
              exact Or.inr ⟨s, hs, hr⟩
          have heps : ((valuesOf (one cs!"sv_epsilon" cs!"sv-epsilon") l.events).getLast? = none ∧ eps = 0) ∨
              ∃ s, (valuesOf (one cs!"sv_epsilon" cs!"sv-epsilon") l.events).getLast? = some s ∧ W.float s = some eps := by
            unfold epsGiven at he
            rw [o5] at he
            split at he
            · rename_i hn
              cases he
              exact Or.inl ⟨hn, rfl⟩
            · rename_i s hs
              exact Or.inr ⟨s, hs, he⟩
          have hq : AsksLora W.float l.events
              { base, model, out, rank, eps, distribute := _, embed := _, skip := _, save := _, exclude := _, include_ := _, cache := _ } :=
            ⟨hbase, hmodel, hout, hrank, heps, rfl, rfl, rfl, rfl, rfl, rfl, rfl⟩
          rw [loraOpts_eq h2 hq, o9] at h
          cases hB : ModelRef.parse base with
          | error e => rw [hB] at h; cases h
          | ok B =>
            rw [hB] at h
            cases hM : ModelRef.parse model with
            | error e => rw [hM] at h; cases h
            | ok M =>
              rw [hM] at h
              simp only at h
              split at h
              · rename_i B' M' hB' hM'
                split at h
                · cases h
                · rename_i hneg
                  split at h
                  · cases h
                  · rename_i saved hs
                    split at h
                    · cases h
                    · rename_i readme hc
                      cases h
                      refine ⟨k, _, B, M, B', M', h1, h2, hq, hB, hM, mergedIn_iff.1 hB', mergedIn_iff.1 hM', ?_, hs, hc, rfl, rfl⟩
                      by_cases hd : 0 ≤ rank
                      · exact Or.inl hd
                      · refine Or.inr ?_
                        simp only
                        by_contra hf
                        exact hneg ⟨not_le.1 hd, Bool.eq_false_of_not_eq_true hf⟩
              · cases h
  · rintro ⟨k, q, B, M, B', M', h1, h2, hq, hB, hM, hB', hM', hrank, hs, hc, ho, hn⟩
    have hk := (CommandLine.C128_call extractLora_mem l k).2 ⟨h1, h2⟩
    obtain ⟨o1, o2, o3, o4, o5, o6, o7, o8, o9, o10, o11⟩ := lora_options h2
    have hr : rankGiven k = some q.rank := by
      unfold rankGiven
      rw [o4]
      rcases hq.rank with ⟨h, hr⟩ | ⟨s, h, hr⟩
      · rw [h, hr]
      · rw [h]; exact hr
    have he : epsGiven W k = some q.eps := by
      unfold epsGiven
      rw [o5]
      rcases hq.eps with ⟨h, hr⟩ | ⟨s, h, hr⟩
      · rw [h, hr]
      · rw [h]; exact hr
    unfold loraMain
    rw [hk]
    simp only
    rw [hr, he, o1, o2, o3, o6, hq.base, hq.model, hq.out, textOf_called h2 rfl, hq.cache, hq.distribute, loraOpts_eq h2 hq, o9, hq.save]
    simp only [Option.getD_some]
    rw [hB, hM]
    simp only
    rw [mergedIn_iff.2 hB', mergedIn_iff.2 hM']
    simp only
    rw [if_neg, hs]
    · simp only
      rw [hc]
      simp only
      rw [← ho, ← hn]
    · rintro ⟨h1, h2⟩
      rcases hrank with h | h
      · omega
      · rw [h] at h2; cases h2

/-! ## Extractions -/

/-- A model that is only a path. -/
def pathOnly (path : Str) : Ref := { model := { path } }

theorem decompInt_nonneg {svd : ∀ m n, Matrix (Fin m) (Fin n) ℝ → Svd m n} {rank : Int} (h : 0 ≤ rank) (eps : ℝ) (distribute : Bool) :
    decompInt svd rank eps distribute = decompMat svd rank.toNat eps distribute := by
  funext emb tv
  unfold decompInt
  rw [if_neg (by omega)]

section
variable {W : LoraWorld} {prog : Str} {line : List Str} {l : Line CommandLine.extractLora.opts line} {k : CommandLine.Call} {q : LoraAsked} {P : Str} {M M' : Ref}

/-- **C140** From the command line to the files: a base model that is given by its path alone, a model with or without an adapter and with a vocabulary of the same size, no listed modules, and all tensors
that are needed.  The command succeeds, and loading the adapter in the directory asked for on the model that its configuration names gives the fine-tuned model's weight for every module that is to be
saved or decomposed (if the rank allowed is enough), and the base model's for the others. -/
theorem C140_restores_partial (hsvd : ∀ m n A, IsSvd A (W.svd m n A).u (W.svd m n A).s (W.svd m n A).vh)
    (hk : Enough CommandLine.extractLora l.events l.args) (hk' : Called CommandLine.extractLora l.events l.args k) (hq : AsksLora W.float l.events q)
    (hB : ModelRef.parse q.base = .ok (pathOnly P)) (hM : ModelRef.parse q.model = .ok M) (hM' : Meant W q.cache M M') (hsave : q.save = []) (hrk : 0 ≤ q.rank)
    (hshow : ∀ p ∈ P :: Card.paths M, Card.CanShow W.card p) (hv : W.vocab (pathOnly P) = W.vocab M')
    (hu : Uniform (q.opts W.search) (W.modules M')) (hnd : ((W.modules M').map (fun m => m.name)).Nodup) (hp : ∀ m ∈ W.modules M', Plain m.name) (hap : Apart (q.opts W.search) (W.modules M'))
    (hst : Stocked (W.arch M') (W.tensors (pathOnly P)) (W.tensors M') (q.opts W.search) (W.modules M')) (hex : ∃ m ∈ W.modules M', Split (q.opts W.search) m)
    (hrank : ∀ m ∈ W.modules M', Split (q.opts W.search) m → ∃ (r c : Nat) (X Y : Matrix (Fin r) (Fin c) ℝ), W.tensors (pathOnly P) (m.name ++ cs!".weight") = some ⟨r, c, X⟩ ∧
      W.tensors M' (m.name ++ cs!".weight") = some ⟨r, c, Y⟩ ∧ RankEnough q.rank.toNat q.eps (singular W.svd (decide (m.kind = .embedding)) (Y - X)))
    (hhas : ∀ m ∈ W.modules M', Whole (q.opts W.search) m → W.tensors M' (m.name ++ cs!".weight") ≠ none) :
    ∃ r, loraMain W prog line = .ok r ∧ r.out = q.out ∧ ∃ loaded, peftLoad Mat.plus Mat.product (W.tensors (pathOnly r.named)) r.saved (W.modules M') = .ok loaded ∧
      loaded.map Prod.fst = ((W.modules M').filter (fun m => m.hasWeight)).map (fun m => m.name) ∧
      ∀ m ∈ W.modules M', m.hasWeight = true → ∃ w b, (m.name, w, b) ∈ loaded ∧
        (Whole (q.opts W.search) m ∨ Decomposed (q.opts W.search) m → w = W.tensors M' (m.name ++ cs!".weight")) ∧
        (¬ Whole (q.opts W.search) m → ¬ Decomposed (q.opts W.search) m → w = W.tensors (pathOnly P) (m.name ++ cs!".weight")) ∧
        (Whole (q.opts W.search) m → W.arch M' (m.name ++ cs!".bias") ≠ none → W.tensors M' (m.name ++ cs!".bias") ≠ none → b = W.tensors M' (m.name ++ cs!".bias")) ∧
        (¬ Whole (q.opts W.search) m → b = W.tensors (pathOnly P) (m.name ++ cs!".bias")) := by
  obtain ⟨a, ha⟩ := (Lora.C129_runs (rows := Mat.rows) (decomp := decompMat W.svd q.rank.toNat q.eps q.distribute) hu).2 ⟨hst, hex⟩
  obtain ⟨card, hc⟩ := (Card.C139_written W.card (pathOnly P) M (prog :: line) q.out (W.vocab (pathOnly P)) (W.vocab M')).2 hshow
  refine ⟨⟨q.out, a, P, card⟩, ?_, rfl, Lora.C129_restores_partial hsvd hu hnd hp hap ha hrank hhas⟩
  refine (C140_main W prog l _).2 ⟨k, q, pathOnly P, M, pathOnly P, M', hk, hk', hq, hB, hM, .plain rfl, hM', Or.inl hrk, ?_, hc, rfl, rfl⟩
  rw [hsave, hv, Lora.C129_one_size, decompInt_nonneg hrk]
  exact ha

/-- **C140** The same for a fine-tuned model with another vocabulary, after the embeddings of the model that the configuration names have been resized in whatever way. -/
theorem C140_resized_partial (hsvd : ∀ m n A, IsSvd A (W.svd m n A).u (W.svd m n A).s (W.svd m n A).vh)
    (hk : Enough CommandLine.extractLora l.events l.args) (hk' : Called CommandLine.extractLora l.events l.args k) (hq : AsksLora W.float l.events q)
    (hB : ModelRef.parse q.base = .ok (pathOnly P)) (hM : ModelRef.parse q.model = .ok M) (hM' : Meant W q.cache M M') (hsave : q.save = []) (hrk : 0 ≤ q.rank)
    (hshow : ∀ p ∈ P :: Card.paths M, Card.CanShow W.card p) (hv : W.vocab (pathOnly P) ≠ W.vocab M')
    (hu : Uniform (q.opts W.search).plain (W.modules M')) (hnd : ((W.modules M').map (fun m => m.name)).Nodup) (hp : ∀ m ∈ W.modules M', Plain m.name)
    (hap : Apart (q.opts W.search).plain (W.modules M'))
    (hst : Stocked (W.arch M') (W.tensors (pathOnly P)) (W.tensors M') (q.opts W.search).plain (W.modules M')) (hex : ∃ m ∈ W.modules M', Split (q.opts W.search).plain m)
    (hrank : ∀ m ∈ W.modules M', ¬ Lora.Embeds m → Split (q.opts W.search).plain m → ∃ (r c : Nat) (X Y : Matrix (Fin r) (Fin c) ℝ),
      W.tensors (pathOnly P) (m.name ++ cs!".weight") = some ⟨r, c, X⟩ ∧ W.tensors M' (m.name ++ cs!".weight") = some ⟨r, c, Y⟩ ∧
      RankEnough q.rank.toNat q.eps (singular W.svd (decide (m.kind = .embedding)) (Y - X)))
    (hhas : ∀ m ∈ W.modules M', Whole (q.opts W.search).plain m → W.tensors M' (m.name ++ cs!".weight") ≠ none) :
    ∃ r, loraMain W prog line = .ok r ∧ r.out = q.out ∧ ∀ base' : Str → Option Mat,
      (∀ m ∈ W.modules M', ¬ Lora.Embeds m → base' (m.name ++ cs!".weight") = W.tensors (pathOnly r.named) (m.name ++ cs!".weight")) →
      ∃ loaded, peftLoad Mat.plus Mat.product base' r.saved (W.modules M') = .ok loaded ∧
      loaded.map Prod.fst = ((W.modules M').filter (fun m => m.hasWeight)).map (fun m => m.name) ∧
      ∀ m ∈ W.modules M', m.hasWeight = true → ∃ w b, (m.name, w, b) ∈ loaded ∧
        (Lora.Embeds m → (∀ e ∈ q.exclude, W.search e m.name = false) → w = W.tensors M' (m.name ++ cs!".weight")) ∧
        (Whole (q.opts W.search).plain m ∨ Decomposed (q.opts W.search) m → w = W.tensors M' (m.name ++ cs!".weight")) ∧
        (¬ Whole (q.opts W.search).plain m → ¬ Decomposed (q.opts W.search) m → w = base' (m.name ++ cs!".weight")) ∧
        (¬ Whole (q.opts W.search).plain m → b = base' (m.name ++ cs!".bias")) := by
  obtain ⟨a, ha⟩ := (Lora.C129_runs (rows := Mat.rows) (decomp := decompMat W.svd q.rank.toNat q.eps q.distribute) hu).2 ⟨hst, hex⟩
  obtain ⟨card, hc⟩ := (Card.C139_written W.card (pathOnly P) M (prog :: line) q.out (W.vocab (pathOnly P)) (W.vocab M')).2 hshow
  have hx : extractAny (W.vocab (pathOnly P)) (W.vocab M') (W.arch M') (W.tensors (pathOnly P)) (W.tensors M') (decompMat W.svd q.rank.toNat q.eps q.distribute) Mat.rows (q.opts W.search) []
      (W.modules M') = .ok a := by
    unfold extractAny
    rw [Lora.vocabOpts_differ hv]
    exact ha
  refine ⟨⟨q.out, a, P, card⟩, ?_, rfl, ?_⟩
  · refine (C140_main W prog l _).2 ⟨k, q, pathOnly P, M, pathOnly P, M', hk, hk', hq, hB, hM, .plain rfl, hM', Or.inl hrk, ?_, hc, rfl, rfl⟩
    rw [hsave, decompInt_nonneg hrk]
    exact hx
  · intro base' hbase
    obtain ⟨loaded, h1, h2, h3⟩ := Lora.C129_resized hv hsvd hu hnd hp hap hx hrank hhas hbase
    refine ⟨loaded, h1, h2, ?_⟩
    intro m hm hw
    obtain ⟨w, b, g1, g2, g3, g4, -, g6⟩ := h3 m hm hw
    refine ⟨w, b, g1, fun he hn => g2 he ?_, g3, g4, g6⟩
    unfold LoraAsked.opts
    simp only [decide_eq_false_iff_not, not_exists, not_and]
    intro e he hs
    rw [hn e he] at hs
    cases hs

end

/-! ## What goes wrong -/

section
variable {W : LoraWorld} {prog : Str} {line : List Str} (l : Line CommandLine.extractLora.opts line) {q : LoraAsked} {B M B' M' : Ref} {r : LoraFiles}

theorem meant_one {cache : Option Str} {x y z : Ref} (h : Meant W cache x y) (h' : Meant W cache x z) : y = z := by
  have := mergedIn_iff.2 h
  rw [mergedIn_iff.2 h'] at this
  exact (Option.some.inj this).symm

theorem asks_one {float : Str → Option ℝ} {es : List Event} {q q' : LoraAsked} (h : AsksLora float es q) (h' : AsksLora float es q') : q = q' := by
  obtain ⟨a1, a2, a3, a4, a5, a6, a7, a8, a9, a10, a11, a12⟩ := h
  obtain ⟨b1, b2, b3, b4, b5, b6, b7, b8, b9, b10, b11, b12⟩ := h'
  cases q
  cases q'
  simp only at *
  subst a6 a7 a8 a9 a10 a11 a12 b6 b7 b8 b9 b10 b11 b12
  have e1 := a1.symm.trans b1
  have e2 := a2.symm.trans b2
  have e3 := a3.symm.trans b3
  cases e1
  cases e2
  cases e3
  congr 1
  · rcases a4 with ⟨x, y⟩ | ⟨s, x, y⟩ <;> rcases b4 with ⟨x', y'⟩ | ⟨s', x', y'⟩ <;> rw [x] at x'
    · rw [y, y']
    · cases x'
    · cases x'
    · cases x'; rw [y] at y'; exact Option.some.inj y'
  · rcases a5 with ⟨x, y⟩ | ⟨s, x, y⟩ <;> rcases b5 with ⟨x', y'⟩ | ⟨s', x', y'⟩ <;> rw [x] at x'
    · rw [y, y']
    · cases x'
    · cases x'
    · cases x'; rw [y] at y'; exact Option.some.inj y'

theorem plus_cancel {a c : Nat} {X X' : Matrix (Fin a) (Fin c) ℝ} {p : Mat} (h : (Mat.mk a c X').plus p = (Mat.mk a c X).plus p) : X' = X := by
  have h : Mat.mk a c (fun i j => X' i j + p.at i j) = Mat.mk a c (fun i j => X i j + p.at i j) := h
  injection h with _ _ h
  funext i j
  exact add_right_cancel (congrFun (congrFun h i) j)

theorem enough_vocab {b f : Nat} {o : Lora.Opts} {given : List Str} {m : Module} (h : Lora.Enough (Lora.vocabOpts b f o) given m) : Lora.Enough o given m := by
  unfold Lora.vocabOpts at h
  split at h
  · rename_i hc
    exact ⟨fun he => absurd he.2.1 (by rw [hc.2]; simp), h.2⟩
  · exact h

include l in
/-- **C140** refuted: if a base model is given with an adapter or a revision, the configuration names its path alone.  A decomposed module for which that model has another weight does then not get the
weight of the fine-tuned model. -/
theorem C140_base_lost (hsvd : ∀ m n A, IsSvd A (W.svd m n A).u (W.svd m n A).s (W.svd m n A).vh) (hq : AsksLora W.float l.events q)
    (hB : ModelRef.parse q.base = .ok B) (hM : ModelRef.parse q.model = .ok M) (hB' : Meant W q.cache B B') (hM' : Meant W q.cache M M') (hsave : q.save = []) (hrk : 0 ≤ q.rank)
    (hv : W.vocab B' = W.vocab M') (hu : Uniform (q.opts W.search) (W.modules M')) (hnd : ((W.modules M').map (fun m => m.name)).Nodup) (hp : ∀ m ∈ W.modules M', Plain m.name)
    (hap : Apart (q.opts W.search) (W.modules M')) (h : loraMain W prog line = .ok r) {m : Module} (hm : m ∈ W.modules M') (hs : Split (q.opts W.search) m)
    {a c : Nat} {X X' Y : Matrix (Fin a) (Fin c) ℝ} (hX : W.tensors B' (m.name ++ cs!".weight") = some ⟨a, c, X⟩) (hY : W.tensors M' (m.name ++ cs!".weight") = some ⟨a, c, Y⟩)
    (hX' : W.tensors (pathOnly r.named) (m.name ++ cs!".weight") = some ⟨a, c, X'⟩) (hre : RankEnough q.rank.toNat q.eps (singular W.svd (decide (m.kind = .embedding)) (Y - X)))
    (hne : X' ≠ X) :
    r.named = B.model.path ∧ Lora.peftWeight Mat.plus Mat.product (W.tensors (pathOnly r.named)) r.saved m ≠ .ok (W.tensors M' (m.name ++ cs!".weight")) := by
  obtain ⟨k, q', C, N, C', N', -, -, hq', hC, hN, hC', hN', -, hx, -, -, hnamed⟩ := (C140_main W prog l r).1 h
  obtain rfl := asks_one hq hq'
  rw [hB] at hC
  cases hC
  rw [hM] at hN
  cases hN
  obtain rfl := meant_one hB' hC'
  obtain rfl := meant_one hM' hN'
  refine ⟨hnamed, ?_⟩
  rw [hsave, hv, Lora.C129_one_size, decompInt_nonneg hrk] at hx
  have hr := Lora.ran hu hnd hp hap hx
  obtain ⟨b', f', hb', hf', h1, h2, h3, h4⟩ := hr.split m hm hs
  rw [hX] at hb'
  cases hb'
  rw [hY] at hf'
  cases hf'
  obtain ⟨g1, g2⟩ := Lora.decomp_restores hsvd _ hre q.distribute
  unfold Lora.peftWeight
  rw [if_neg (by rw [Lora.replaced_split hr hap hm hs]; exact Bool.false_ne_true), if_pos (Lora.targeted_split hr hm hs), if_neg hs.2.2.1, h1, h2, if_neg g1]
  simp only [h3, h4, hX', hY, Option.map_some]
  intro hc
  have hc := Option.some.inj (Except.ok.inj hc)
  exact hne (plus_cancel (hc.trans g2.symm))

include l in
/-- **C140** refuted: with `--save-module` the command fails unless all modules that must be saved at full rank are listed. -/
theorem C140_listed_fails (hq : AsksLora W.float l.events q) (hM : ModelRef.parse q.model = .ok M) (hM' : Meant W q.cache M M') (hsave : q.save ≠ [])
    {m : Module} (hm : m ∈ W.modules M') (he : ¬ Lora.Enough (q.opts W.search) q.save m) : loraMain W prog line ≠ .ok r := by
  intro h
  obtain ⟨k, q', C, N, C', N', -, -, hq', -, hN, -, hN', -, hx, -⟩ := (C140_main W prog l r).1 h
  obtain rfl := asks_one hq hq'
  rw [hM] at hN
  cases hN
  obtain rfl := meant_one hM' hN'
  unfold extractAny extract at hx
  rw [Lora.C79_listed_fails hsave hm (fun h => he (enough_vocab h))] at hx
  cases hx

theorem decompInt_rows {svd : ∀ m n, Matrix (Fin m) (Fin n) ℝ → Svd m n} {rank : Int} (h : rank < 0) (eps : ℝ) (distribute emb : Bool) (tv : Mat) :
    (decompInt svd rank eps distribute emb tv).1.rows = min tv.rows tv.cols - rank.natAbs := by
  unfold decompInt
  rw [if_pos h]
  cases emb
  · show Lora.rankOf _ 0 _ = _
    unfold Lora.rankOf
    rw [if_neg (lt_irrefl _)]
    simp only [Bool.false_eq_true, if_false]
    omega
  · show Lora.rankOf _ 0 _ = _
    unfold Lora.rankOf
    rw [if_neg (lt_irrefl _)]
    simp only [if_true, Mat.flip]
    omega

include l in
/-- **C140** refuted: a negative rank is not refused.  Unless scales are not to be distributed, every decomposed module gets a pair with as many columns less than its weight allows, whatever the threshold. -/
theorem C140_negative_rank (hq : AsksLora W.float l.events q) (hB : ModelRef.parse q.base = .ok B) (hM : ModelRef.parse q.model = .ok M) (hB' : Meant W q.cache B B') (hM' : Meant W q.cache M M')
    (hsave : q.save = []) (hrk : q.rank < 0) (hv : W.vocab B' = W.vocab M') (hu : Uniform (q.opts W.search) (W.modules M')) (hnd : ((W.modules M').map (fun m => m.name)).Nodup)
    (hp : ∀ m ∈ W.modules M', Plain m.name) (hap : Apart (q.opts W.search) (W.modules M')) (h : loraMain W prog line = .ok r) {m : Module} (hm : m ∈ W.modules M')
    (hs : Split (q.opts W.search) m) (hk : m.kind ≠ .embedding) {a c : Nat} {X Y : Matrix (Fin a) (Fin c) ℝ} (hX : W.tensors B' (m.name ++ cs!".weight") = some ⟨a, c, X⟩)
    (hY : W.tensors M' (m.name ++ cs!".weight") = some ⟨a, c, Y⟩) :
    q.distribute = true ∧ ∃ A, r.saved.tensors.lookup (cs!"base_model.model." ++ m.name ++ cs!".lora_A.weight") = some A ∧ A.rows = min a c - q.rank.natAbs := by
  obtain ⟨k, q', C, N, C', N', -, -, hq', hC, hN, hC', hN', hd, hx, -⟩ := (C140_main W prog l r).1 h
  obtain rfl := asks_one hq hq'
  rw [hB] at hC
  cases hC
  rw [hM] at hN
  cases hN
  obtain rfl := meant_one hB' hC'
  obtain rfl := meant_one hM' hN'
  refine ⟨hd.resolve_left (by omega), ?_⟩
  rw [hsave, hv, Lora.C129_one_size] at hx
  obtain ⟨b', f', hb', hf', -, -, h3, -⟩ := (Lora.ran hu hnd hp hap hx).split m hm hs
  rw [hX] at hb'
  cases hb'
  rw [hY] at hf'
  cases hf'
  rw [decide_eq_false hk] at h3
  refine ⟨_, h3, ?_⟩
  rw [decompInt_rows hrk, Lora.mat_sub]

include l in
/-- **C140** Running the command that the model card shows gives the same again, if nothing in it is special to a shell. -/
theorem C140_again (hq : AsksLora W.float l.events q) (hB : ModelRef.parse q.base = .ok B) (hM : ModelRef.parse q.model = .ok M) (hvoc : ∀ x, 0 < W.vocab x)
    (hs : Card.Short W.card [B, M] q.out) (h : loraMain W prog line = .ok r) (ht : ∀ s ∈ prog :: line, Card.Tame s) :
    ∃ shown, Card.command r.readme = [shown] ∧ (Card.words shown).head? = some prog ∧ loraMain W prog (Card.words shown).tail = .ok r := by
  obtain ⟨k, q', C, N, C', N', -, -, hq', hC, hN, -, -, -, -, hc, -⟩ := (C140_main W prog l r).1 h
  obtain rfl := asks_one hq hq'
  rw [hB] at hC
  cases hC
  rw [hM] at hN
  cases hN
  obtain ⟨shown, h1, h2⟩ := Card.C139_command _ _ _ _ _ (hvoc _) (hvoc _) _ hs hc ht
  refine ⟨shown, h1, ?_, ?_⟩ <;> rw [h2]
  · rfl
  · exact h

end

/-! ## The hypotheses can be met -/

/-- Models as in `Verif.Lora.small`: `f` is fine-tuned, and so is what `b` becomes with the adapter `x`. -/
noncomputable def loraWorld (svd : ∀ m n, Matrix (Fin m) (Fin n) ℝ → Svd m n) : LoraWorld where
  adapted := fun _ _ => some (pathOnly cs!"b and x")
  vocab := fun _ => 2
  modules := fun _ => Lora.small
  arch := fun _ n => if n = cs!"model.0.q.bias" then some true else none
  tensors := fun r => if r = pathOnly cs!"b" then Lora.before else Lora.after
  search := fun r n => decide (r = n)
  float := fun _ => none
  svd := svd
  card := Card.someWorld

/-- `mergekit-extract-lora --base-model b --model f --out-path o --max-rank 1 --no-distribute-scale`. -/
def loraLine : Line CommandLine.extractLora.opts [cs!"--base-model", cs!"b", cs!"--model", cs!"f", cs!"--out-path", cs!"o", cs!"--max-rank", cs!"1", cs!"--no-distribute-scale"] where
  uses := [.next (must cs!"base_model" cs!"base-model") cs!"--base-model" cs!"b", .next (must cs!"model" cs!"model") cs!"--model" cs!"f",
    .next (must cs!"out_path" cs!"out-path") cs!"--out-path" cs!"o", .next (one cs!"max_rank" cs!"max-rank") cs!"--max-rank" cs!"1",
    .flag (yesNo cs!"distribute_scale" cs!"distribute-scale") cs!"--no-distribute-scale" false]
  after := none
  fits := by
    intro u hu
    simp only [List.mem_cons, List.not_mem_nil, or_false] at hu
    rcases hu with rfl | rfl | rfl | rfl | rfl
    all_goals exact ⟨by decide +kernel, by decide +kernel, by decide +kernel, by decide +kernel⟩
  written := by decide +kernel

/-- What it asks for. -/
noncomputable def loraQuery : LoraAsked := ⟨cs!"b", cs!"f", cs!"o", 1, 0, false, false, false, [], [], [], none⟩

theorem loraLine_asks (float : Str → Option ℝ) : AsksLora float loraLine.events loraQuery :=
  ⟨by decide +kernel, by decide +kernel, by decide +kernel, Or.inr ⟨cs!"1", by decide +kernel, by decide +kernel⟩, Or.inl ⟨by decide +kernel, rfl⟩, by decide +kernel, by decide +kernel,
    by decide +kernel, by decide +kernel, by decide +kernel, by decide +kernel, by decide +kernel⟩

theorem plain_opts (q : LoraAsked) (search : Str → Str → Bool) (h1 : q.embed = false) (h2 : q.skip = false) (h3 : q.exclude = []) (h4 : q.include_ = []) : q.opts search = Lora.defaults := by
  unfold LoraAsked.opts Lora.defaults
  simp [h1, h2, h3, h4]

theorem someWorld_shows {p : Str} (h : p ≠ []) : Card.CanShow Card.someWorld p := ⟨h, Or.inr (Or.inr (Or.inr (Or.inl rfl)))⟩

theorem one_product : ∃ (b : Matrix (Fin 2) (Fin 1) ℝ) (a : Matrix (Fin 1) (Fin 2) ℝ), (Matrix.of (fun _ _ => 1) : Matrix (Fin 2) (Fin 2) ℝ) - 0 = b * a := by
  refine ⟨Matrix.of (fun _ _ => 1), Matrix.of (fun _ _ => 1), ?_⟩
  ext i j
  simp [Matrix.mul_apply]

theorem small_split {m : Module} (hm : m ∈ Lora.small) (hs : Split Lora.defaults m) : m = ⟨cs!"model.0.q", .linear, true, false⟩ ∨ m = ⟨cs!"model.1.q", .linear, true, false⟩ := by
  revert m
  unfold Split Whole Decomposed
  decide +kernel

theorem after_some (n : Str) : Lora.after n ≠ none := by
  unfold Lora.after
  split
  · simp
  · split <;> simp

/-- The changed layer comes back, and the command shown does the same again. -/
example : ∃ svd r, loraMain (loraWorld svd) cs!"mergekit-extract-lora"
      [cs!"--base-model", cs!"b", cs!"--model", cs!"f", cs!"--out-path", cs!"o", cs!"--max-rank", cs!"1", cs!"--no-distribute-scale"] = .ok r ∧ r.out = cs!"o" ∧
    (∃ loaded b, peftLoad Mat.plus Mat.product ((loraWorld svd).tensors (pathOnly r.named)) r.saved Lora.small = .ok loaded ∧
      (cs!"model.0.q", some (Mat.mk 2 2 (Matrix.of (fun _ _ => 1))), b) ∈ loaded) ∧
    ∃ shown, Card.command r.readme = [shown] ∧ loraMain (loraWorld svd) cs!"mergekit-extract-lora" (Card.words shown).tail = .ok r := by
  obtain ⟨svd, hsvd⟩ := Lora.svd_exists
  obtain ⟨k, hk⟩ : ∃ k, CommandLine.call CommandLine.extractLora
    [cs!"--base-model", cs!"b", cs!"--model", cs!"f", cs!"--out-path", cs!"o", cs!"--max-rank", cs!"1", cs!"--no-distribute-scale"] = .ok k := ⟨_, rfl⟩
  obtain ⟨h1, h2⟩ := (CommandLine.C128_call extractLora_mem loraLine k).1 hk
  have ho : loraQuery.opts (loraWorld svd).search = Lora.defaults := plain_opts _ _ rfl rfl rfl rfl
  have hpb : ModelRef.parse loraQuery.base = .ok (pathOnly cs!"b") := by decide +kernel
  have hpf : ModelRef.parse loraQuery.model = .ok (pathOnly cs!"f") := by decide +kernel
  have htb : (loraWorld svd).tensors (pathOnly cs!"b") = Lora.before := by unfold loraWorld; simp only [if_true]
  have htf : (loraWorld svd).tensors (pathOnly cs!"f") = Lora.after := by unfold loraWorld; simp only; exact if_neg (by decide +kernel)
  obtain ⟨r, hr, hout, loaded, hl, -, hin⟩ := C140_restores_partial (W := loraWorld svd) (prog := cs!"mergekit-extract-lora") (l := loraLine) (P := cs!"b") (M := pathOnly cs!"f")
    (M' := pathOnly cs!"f") hsvd h1 h2 (loraLine_asks _) hpb hpf (.plain rfl) rfl (by decide)
    (by
      intro p hp
      refine someWorld_shows ?_
      rintro rfl
      revert hp
      decide +kernel) rfl
    (by rw [ho]; show Uniform Lora.defaults Lora.small; unfold Uniform; decide +kernel) (by show (Lora.small.map (fun m => m.name)).Nodup; decide)
    (by show ∀ m ∈ Lora.small, Plain m.name; unfold Plain; decide +kernel) (by rw [ho]; exact Lora.small_apart)
    (by rw [ho, htb, htf]; exact Lora.small_stocked)
    (by rw [ho]; exact ⟨⟨cs!"model.0.q", .linear, true, false⟩, by show _ ∈ Lora.small; decide +kernel, by unfold Split Whole Decomposed; decide +kernel⟩)
    (by
      rw [ho, htb, htf]
      intro m hm hs
      rcases small_split hm hs with rfl | rfl
      · exact ⟨2, 2, 0, Matrix.of (fun _ _ => 1), rfl, rfl, Lora.C129_low_rank hsvd le_rfl one_pos (by decide) (by decide) one_product _⟩
      · exact ⟨2, 2, 0, 0, rfl, rfl, Lora.C129_low_rank hsvd le_rfl one_pos (by decide) (by decide) ⟨0, 0, by simp⟩ _⟩)
    (by rw [htf]; exact fun _ _ _ => after_some _)
  refine ⟨svd, r, hr, hout, ?_, ?_⟩
  · obtain ⟨w, b, hm, hw, -⟩ := hin ⟨cs!"model.0.q", .linear, true, false⟩ (by show _ ∈ Lora.small; decide +kernel) rfl
    rw [hw (Or.inr (by rw [ho]; unfold Decomposed; decide +kernel)), htf] at hm
    exact ⟨loaded, b, hl, hm⟩
  · obtain ⟨shown, g1, -, g3⟩ := C140_again (W := loraWorld svd) loraLine (loraLine_asks _) hpb hpf (fun _ => two_pos)
      (show Card.Short Card.someWorld [pathOnly cs!"b", pathOnly cs!"f"] cs!"o" from ⟨by decide +kernel, by decide +kernel, by
        intro m hm p hp
        simp only [List.mem_cons, List.not_mem_nil, or_false] at hm
        rcases hm with rfl | rfl <;> cases hp⟩) hr (by unfold Card.Tame; decide +kernel)
    exact ⟨shown, g1, g3⟩

/-- `mergekit-extract-lora --base-model b+x --model f --out-path o --lora-merge-cache c`. -/
def lostLine : Line CommandLine.extractLora.opts [cs!"--base-model", cs!"b+x", cs!"--model", cs!"f", cs!"--out-path", cs!"o", cs!"--lora-merge-cache", cs!"c"] where
  uses := [.next (must cs!"base_model" cs!"base-model") cs!"--base-model" cs!"b+x", .next (must cs!"model" cs!"model") cs!"--model" cs!"f",
    .next (must cs!"out_path" cs!"out-path") cs!"--out-path" cs!"o", .next (one cs!"lora_merge_cache" cs!"lora-merge-cache") cs!"--lora-merge-cache" cs!"c"]
  after := none
  fits := by
    intro u hu
    simp only [List.mem_cons, List.not_mem_nil, or_false] at hu
    rcases hu with rfl | rfl | rfl | rfl
    all_goals exact ⟨by decide +kernel, by decide +kernel, by decide +kernel, by decide +kernel⟩
  written := by decide +kernel

/-- What it asks for. -/
noncomputable def lostQuery : LoraAsked := ⟨cs!"b+x", cs!"f", cs!"o", 128, 0, true, false, false, [], [], [], some cs!"c"⟩

theorem lostLine_asks (float : Str → Option ℝ) : AsksLora float lostLine.events lostQuery :=
  ⟨by decide +kernel, by decide +kernel, by decide +kernel, Or.inl ⟨by decide +kernel, rfl⟩, Or.inl ⟨by decide +kernel, rfl⟩, by decide +kernel, by decide +kernel,
    by decide +kernel, by decide +kernel, by decide +kernel, by decide +kernel, by decide +kernel⟩

/-- The adapter of `b+x`, loaded on `b`. -/
example : ∃ svd r, loraMain (loraWorld svd) cs!"mergekit-extract-lora" [cs!"--base-model", cs!"b+x", cs!"--model", cs!"f", cs!"--out-path", cs!"o", cs!"--lora-merge-cache", cs!"c"] = .ok r ∧
    r.named = cs!"b" ∧ Lora.peftWeight Mat.plus Mat.product ((loraWorld svd).tensors (pathOnly cs!"b")) r.saved ⟨cs!"model.0.q", .linear, true, false⟩ ≠
      .ok (some ⟨2, 2, Matrix.of (fun _ _ => 1)⟩) := by
  obtain ⟨svd, hsvd⟩ := Lora.svd_exists
  obtain ⟨k, hk⟩ : ∃ k, CommandLine.call CommandLine.extractLora [cs!"--base-model", cs!"b+x", cs!"--model", cs!"f", cs!"--out-path", cs!"o", cs!"--lora-merge-cache", cs!"c"] = .ok k := ⟨_, rfl⟩
  obtain ⟨h1, h2⟩ := (CommandLine.C128_call extractLora_mem lostLine k).1 hk
  have ho : lostQuery.opts (loraWorld svd).search = Lora.defaults := plain_opts _ _ rfl rfl rfl rfl
  have hpb : ModelRef.parse lostQuery.base = .ok { model := { path := cs!"b" }, lora := some { path := cs!"x" } } := by decide +kernel
  have hpf : ModelRef.parse lostQuery.model = .ok (pathOnly cs!"f") := by decide +kernel
  have htb : (loraWorld svd).tensors (pathOnly cs!"b and x") = Lora.after := by unfold loraWorld; simp only; exact if_neg (by decide +kernel)
  have htf : (loraWorld svd).tensors (pathOnly cs!"f") = Lora.after := by unfold loraWorld; simp only; exact if_neg (by decide +kernel)
  have hu : Uniform Lora.defaults Lora.small := by unfold Uniform; decide +kernel
  have hB' : Meant (loraWorld svd) lostQuery.cache { model := { path := cs!"b" }, lora := some { path := cs!"x" } } (pathOnly cs!"b and x") := .merged cs!"c" _ (by simp) rfl (by simp) rfl
  obtain ⟨a, ha⟩ := (Lora.C129_runs (arch := (loraWorld svd).arch (pathOnly cs!"f")) (base := Lora.after) (model := Lora.after) (rows := Mat.rows)
    (decomp := decompMat svd 128 0 true) hu).2 ⟨⟨fun _ _ _ _ _ _ => after_some _, fun _ _ _ => ⟨after_some _, after_some _⟩, fun _ _ _ _ => ⟨after_some _, after_some _⟩⟩,
      ⟨cs!"model.0.q", .linear, true, false⟩, by decide +kernel, by unfold Split Whole Decomposed; decide +kernel⟩
  obtain ⟨card, hc⟩ := (Card.C139_written Card.someWorld { model := { path := cs!"b" }, lora := some { path := cs!"x" } } (pathOnly cs!"f")
    (cs!"mergekit-extract-lora" :: [cs!"--base-model", cs!"b+x", cs!"--model", cs!"f", cs!"--out-path", cs!"o", cs!"--lora-merge-cache", cs!"c"]) cs!"o" 2 2).2 (by
      intro p hp
      refine someWorld_shows ?_
      rintro rfl
      revert hp
      decide +kernel)
  have hr : loraMain (loraWorld svd) cs!"mergekit-extract-lora" [cs!"--base-model", cs!"b+x", cs!"--model", cs!"f", cs!"--out-path", cs!"o", cs!"--lora-merge-cache", cs!"c"] =
      .ok ⟨cs!"o", a, cs!"b", card⟩ := by
    refine (C140_main (loraWorld svd) _ lostLine _).2 ⟨k, lostQuery, _, _, _, _, h1, h2, lostLine_asks _, hpb, hpf, hB', .plain rfl, Or.inl (by decide), ?_, hc, rfl, rfl⟩
    rw [ho, htb, htf, show (loraWorld svd).vocab (pathOnly cs!"b and x") = (loraWorld svd).vocab (pathOnly cs!"f") from rfl,
      show lostQuery.save = [] from rfl, Lora.C129_one_size, decompInt_nonneg (by decide)]
    exact ha
  refine ⟨svd, _, hr, rfl, ?_⟩
  have := (C140_base_lost (W := loraWorld svd) lostLine hsvd (lostLine_asks _) hpb hpf hB' (.plain rfl) rfl (by decide) rfl (by rw [ho]; exact hu)
    (by show (Lora.small.map (fun m => m.name)).Nodup; decide) (by show ∀ m ∈ Lora.small, Plain m.name; unfold Plain; decide +kernel) (by rw [ho]; exact Lora.small_apart) hr
    (m := ⟨cs!"model.0.q", .linear, true, false⟩) (by show _ ∈ Lora.small; decide +kernel) (by rw [ho]; unfold Split Whole Decomposed; decide +kernel)
    (a := 2) (c := 2) (X := Matrix.of (fun _ _ => 1)) (X' := 0) (Y := Matrix.of (fun _ _ => 1)) (by rw [htb]; rfl) (by rw [htf]; rfl) rfl
    (Lora.C129_low_rank hsvd le_rfl (by decide) (by decide) (by decide) ⟨0, 0, by simp⟩ _)
    (by
      intro h
      have := congrFun (congrFun h 0) 0
      simp at this)).2
  rw [htf] at this
  exact this

/-- `--save-module q` alone. -/
def listedLine : Line CommandLine.extractLora.opts [cs!"--base-model", cs!"b", cs!"--model", cs!"f", cs!"--out-path", cs!"o", cs!"--save-module", cs!"q"] where
  uses := [.next (must cs!"base_model" cs!"base-model") cs!"--base-model" cs!"b", .next (must cs!"model" cs!"model") cs!"--model" cs!"f",
    .next (must cs!"out_path" cs!"out-path") cs!"--out-path" cs!"o", .next (several cs!"modules_to_save" cs!"save-module") cs!"--save-module" cs!"q"]
  after := none
  fits := by
    intro u hu
    simp only [List.mem_cons, List.not_mem_nil, or_false] at hu
    rcases hu with rfl | rfl | rfl | rfl
    all_goals exact ⟨by decide +kernel, by decide +kernel, by decide +kernel, by decide +kernel⟩
  written := by decide +kernel

example (svd : ∀ m n, Matrix (Fin m) (Fin n) ℝ → Svd m n) (r : LoraFiles) :
    loraMain (loraWorld svd) cs!"mergekit-extract-lora" [cs!"--base-model", cs!"b", cs!"--model", cs!"f", cs!"--out-path", cs!"o", cs!"--save-module", cs!"q"] ≠ .ok r := by
  have ho : (⟨cs!"b", cs!"f", cs!"o", 128, 0, true, false, false, [cs!"q"], [], [], none⟩ : LoraAsked).opts (loraWorld svd).search = Lora.defaults := plain_opts _ _ rfl rfl rfl rfl
  refine C140_listed_fails (W := loraWorld svd) listedLine (q := ⟨cs!"b", cs!"f", cs!"o", 128, 0, true, false, false, [cs!"q"], [], [], none⟩) (M := pathOnly cs!"f") (M' := pathOnly cs!"f")
    ⟨by decide +kernel, by decide +kernel, by decide +kernel, Or.inl ⟨by decide +kernel, rfl⟩, Or.inl ⟨by decide +kernel, rfl⟩, by decide +kernel, by decide +kernel,
      by decide +kernel, by decide +kernel, by decide +kernel, by decide +kernel, by decide +kernel⟩
    (by decide +kernel) (.plain rfl) (by simp) (m := ⟨cs!"model.0.norm", .other, true, false⟩) (by show _ ∈ Lora.small; decide +kernel) ?_
  rw [ho]
  decide +kernel

/-- `mergekit-extract-lora --base-model b --model f --out-path o --max-rank -1`. -/
def negativeLine : Line CommandLine.extractLora.opts [cs!"--base-model", cs!"b", cs!"--model", cs!"f", cs!"--out-path", cs!"o", cs!"--max-rank", cs!"-1"] where
  uses := [.next (must cs!"base_model" cs!"base-model") cs!"--base-model" cs!"b", .next (must cs!"model" cs!"model") cs!"--model" cs!"f",
    .next (must cs!"out_path" cs!"out-path") cs!"--out-path" cs!"o", .next (one cs!"max_rank" cs!"max-rank") cs!"--max-rank" cs!"-1"]
  after := none
  fits := by
    intro u hu
    simp only [List.mem_cons, List.not_mem_nil, or_false] at hu
    rcases hu with rfl | rfl | rfl | rfl
    all_goals exact ⟨by decide +kernel, by decide +kernel, by decide +kernel, by decide +kernel⟩
  written := by decide +kernel

/-- What it asks for. -/
noncomputable def negativeQuery : LoraAsked := ⟨cs!"b", cs!"f", cs!"o", -1, 0, true, false, false, [], [], [], none⟩

theorem negativeLine_asks (float : Str → Option ℝ) : AsksLora float negativeLine.events negativeQuery :=
  ⟨by decide +kernel, by decide +kernel, by decide +kernel, Or.inr ⟨cs!"-1", by decide +kernel, by decide +kernel⟩, Or.inl ⟨by decide +kernel, rfl⟩, by decide +kernel, by decide +kernel,
    by decide +kernel, by decide +kernel, by decide +kernel, by decide +kernel, by decide +kernel⟩

/-- Of the two directions in a matrix of two rows one is kept. -/
example (svd : ∀ m n, Matrix (Fin m) (Fin n) ℝ → Svd m n) : ∃ r A, loraMain (loraWorld svd) cs!"mergekit-extract-lora"
      [cs!"--base-model", cs!"b", cs!"--model", cs!"f", cs!"--out-path", cs!"o", cs!"--max-rank", cs!"-1"] = .ok r ∧
    r.saved.tensors.lookup cs!"base_model.model.model.0.q.lora_A.weight" = some A ∧ A.rows = 1 := by
  obtain ⟨k, hk⟩ : ∃ k, CommandLine.call CommandLine.extractLora [cs!"--base-model", cs!"b", cs!"--model", cs!"f", cs!"--out-path", cs!"o", cs!"--max-rank", cs!"-1"] = .ok k := ⟨_, rfl⟩
  obtain ⟨h1, h2⟩ := (CommandLine.C128_call extractLora_mem negativeLine k).1 hk
  have ho : negativeQuery.opts (loraWorld svd).search = Lora.defaults := plain_opts _ _ rfl rfl rfl rfl
  have hpb : ModelRef.parse negativeQuery.base = .ok (pathOnly cs!"b") := by decide +kernel
  have hpf : ModelRef.parse negativeQuery.model = .ok (pathOnly cs!"f") := by decide +kernel
  have htb : (loraWorld svd).tensors (pathOnly cs!"b") = Lora.before := by unfold loraWorld; simp only [if_true]
  have htf : (loraWorld svd).tensors (pathOnly cs!"f") = Lora.after := by unfold loraWorld; simp only; exact if_neg (by decide +kernel)
  have hu : Uniform Lora.defaults Lora.small := by unfold Uniform; decide +kernel
  obtain ⟨a, ha⟩ := (Lora.C129_runs (rows := Mat.rows) (decomp := decompInt svd (-1) 0 true) hu).2 ⟨Lora.small_stocked,
      ⟨cs!"model.0.q", .linear, true, false⟩, by decide +kernel, by unfold Split Whole Decomposed; decide +kernel⟩
  obtain ⟨card, hc⟩ := (Card.C139_written Card.someWorld (pathOnly cs!"b") (pathOnly cs!"f")
    (cs!"mergekit-extract-lora" :: [cs!"--base-model", cs!"b", cs!"--model", cs!"f", cs!"--out-path", cs!"o", cs!"--max-rank", cs!"-1"]) cs!"o" 2 2).2 (by
      intro p hp
      refine someWorld_shows ?_
      rintro rfl
      revert hp
      decide +kernel)
  have hr : loraMain (loraWorld svd) cs!"mergekit-extract-lora" [cs!"--base-model", cs!"b", cs!"--model", cs!"f", cs!"--out-path", cs!"o", cs!"--max-rank", cs!"-1"] =
      .ok ⟨cs!"o", a, cs!"b", card⟩ := by
    refine (C140_main (loraWorld svd) _ negativeLine _).2 ⟨k, negativeQuery, _, _, _, _, h1, h2, negativeLine_asks _, hpb, hpf, .plain rfl, .plain rfl, Or.inr rfl, ?_, hc, rfl, rfl⟩
    rw [ho, htb, htf, show (loraWorld svd).vocab (pathOnly cs!"b") = (loraWorld svd).vocab (pathOnly cs!"f") from rfl,
      show negativeQuery.save = [] from rfl, Lora.C129_one_size]
    exact ha
  obtain ⟨-, A, hA, hrows⟩ := C140_negative_rank (W := loraWorld svd) negativeLine (negativeLine_asks _) hpb hpf (.plain rfl) (.plain rfl) rfl (by decide) rfl (by rw [ho]; exact hu)
    (by show (Lora.small.map (fun m => m.name)).Nodup; decide) (by show ∀ m ∈ Lora.small, Plain m.name; unfold Plain; decide +kernel) (by rw [ho]; exact Lora.small_apart) hr
    (m := ⟨cs!"model.0.q", .linear, true, false⟩) (by show _ ∈ Lora.small; decide +kernel) (by rw [ho]; unfold Split Whole Decomposed; decide +kernel) (by decide)
    (a := 2) (c := 2) (X := 0) (Y := Matrix.of (fun _ _ => 1)) (by rw [htb]; rfl) (by rw [htf]; rfl)
  exact ⟨_, A, hr, hA, hrows⟩

/-- As before, but `f` has a third token. -/
noncomputable def grownWorld (svd : ∀ m n, Matrix (Fin m) (Fin n) ℝ → Svd m n) : LoraWorld :=
  { loraWorld svd with
    vocab := fun r => if r = pathOnly cs!"b" then 2 else 3
    arch := fun _ _ => none
    tensors := fun r => if r = pathOnly cs!"b" then (fun _ => some ⟨2, 2, 0⟩) else Lora.grown }

/-- The adapter is loaded on `b` with its embeddings resized. -/
example : ∃ svd r, loraMain (grownWorld svd) cs!"mergekit-extract-lora"
      [cs!"--base-model", cs!"b", cs!"--model", cs!"f", cs!"--out-path", cs!"o", cs!"--max-rank", cs!"1", cs!"--no-distribute-scale"] = .ok r ∧
    ∃ loaded b, peftLoad Mat.plus Mat.product Lora.resized r.saved Lora.small = .ok loaded ∧
      (cs!"model.embed", some (Mat.mk 3 2 (Matrix.of (fun _ _ => 7))), b) ∈ loaded := by
  obtain ⟨svd, hsvd⟩ := Lora.svd_exists
  obtain ⟨k, hk⟩ : ∃ k, CommandLine.call CommandLine.extractLora
    [cs!"--base-model", cs!"b", cs!"--model", cs!"f", cs!"--out-path", cs!"o", cs!"--max-rank", cs!"1", cs!"--no-distribute-scale"] = .ok k := ⟨_, rfl⟩
  obtain ⟨h1, h2⟩ := (CommandLine.C128_call extractLora_mem loraLine k).1 hk
  have ho : (loraQuery.opts (grownWorld svd).search).plain = Lora.defaults := by rw [plain_opts loraQuery _ rfl rfl rfl rfl]; rfl
  have hpb : ModelRef.parse loraQuery.base = .ok (pathOnly cs!"b") := by decide +kernel
  have hpf : ModelRef.parse loraQuery.model = .ok (pathOnly cs!"f") := by decide +kernel
  have hnbf : ¬ pathOnly cs!"f" = pathOnly cs!"b" := by decide +kernel
  have htb : (grownWorld svd).tensors (pathOnly cs!"b") = fun _ => some ⟨2, 2, 0⟩ := by unfold grownWorld; simp only [if_true]
  have htf : (grownWorld svd).tensors (pathOnly cs!"f") = Lora.grown := by unfold grownWorld; simp only; exact if_neg hnbf
  have hg : ∀ n, Lora.grown n ≠ none := by
    intro n
    unfold Lora.grown
    split <;> simp
  obtain ⟨r, hr, -, hload⟩ := C140_resized_partial (W := grownWorld svd) (prog := cs!"mergekit-extract-lora") (l := loraLine) (P := cs!"b") (M := pathOnly cs!"f")
    (M' := pathOnly cs!"f") hsvd h1 h2 (loraLine_asks _) hpb hpf (.plain rfl) rfl (by decide)
    (by
      intro p hp
      refine someWorld_shows ?_
      rintro rfl
      revert hp
      decide +kernel)
    (by unfold grownWorld; simp only [if_true]; rw [if_neg hnbf]; decide)
    (by rw [ho]; show Uniform Lora.defaults Lora.small; unfold Uniform; decide +kernel) (by show (Lora.small.map (fun m => m.name)).Nodup; decide)
    (by show ∀ m ∈ Lora.small, Plain m.name; unfold Plain; decide +kernel) (by rw [ho]; exact Lora.small_apart)
    (by rw [ho, htb, htf]; exact ⟨fun _ _ _ _ _ _ => hg _, fun _ _ _ => ⟨by simp, hg _⟩, fun _ _ _ _ => ⟨by simp, hg _⟩⟩)
    (by rw [ho]; exact ⟨⟨cs!"model.0.q", .linear, true, false⟩, by show _ ∈ Lora.small; decide +kernel, by unfold Split Whole Decomposed; decide +kernel⟩)
    (by
      rw [ho, htb, htf]
      intro m hm _ hs
      rcases small_split hm hs with rfl | rfl
      · exact ⟨2, 2, 0, Matrix.of (fun _ _ => 1), rfl, rfl, Lora.C129_low_rank hsvd le_rfl one_pos (by decide) (by decide) one_product _⟩
      · exact ⟨2, 2, 0, Matrix.of (fun _ _ => 1), rfl, rfl, Lora.C129_low_rank hsvd le_rfl one_pos (by decide) (by decide) one_product _⟩)
    (by rw [htf]; exact fun _ _ _ => hg _)
  have hnamed : r.named = cs!"b" := by
    obtain ⟨_, q', C, -, -, -, -, -, hq', hC, -, -, -, -, -, -, -, hn⟩ := (C140_main _ _ loraLine r).1 hr
    obtain rfl := asks_one (loraLine_asks _) hq'
    rw [hpb] at hC
    cases hC
    exact hn
  obtain ⟨loaded, hl, -, hin⟩ := hload Lora.resized (by
    rw [hnamed, htb]
    intro m hm he
    have hne : ¬ (m.name ++ cs!".weight" = cs!"model.embed.weight" ∨ m.name ++ cs!".weight" = cs!"head.weight") := by
      have hall : ∀ m ∈ Lora.small, ¬ Lora.Embeds m → ¬ (m.name ++ cs!".weight" = cs!"model.embed.weight" ∨ m.name ++ cs!".weight" = cs!"head.weight") := by
        unfold Lora.Embeds
        decide +kernel
      exact hall m hm he
    unfold Lora.resized
    rw [if_neg hne])
  obtain ⟨w, b, hm, hw, -⟩ := hin ⟨cs!"model.embed", .embedding, true, true⟩ (by show _ ∈ Lora.small; decide +kernel) rfl
  rw [hw (Or.inl rfl) (by intro e he; cases he), htf] at hm
  exact ⟨svd, r, hr, loaded, b, hl, hm⟩

end Verif.Main
