import Verif.Props.MainShuffle

/-! # C148: the configurations that `mergekit-legacy` and `mergekit-layershuffle` show -/

set_option linter.unusedSectionVars false
set_option linter.unusedSimpArgs false

namespace Verif.Main

open Verif.ModelRef (Str Ref)
open Verif.Document (Doc Conf Lib Maybe Listed Has Text RefSays SliceSays SourceSays ModelSays ConfSays Writable read C130_reads C130_round_trip)
open Verif.CommandLine (Event Line Called Enough marksOf valuesOf)
open Verif.WholeMerge (Method getMethod)
open Verif.Scripts (listed)

/-- `mergekit-yaml`, given a file with this document, makes the merge of this configuration with this method. -/
def Repeats (W : World) (d : Doc ℝ) (c : Conf ℝ) (m : Method) : Prop :=
  ∀ (line : List Str) (l : Line CommandLine.yaml.opts line) (k : CommandLine.Call), Enough CommandLine.yaml l.events l.args → Called CommandLine.yaml l.events l.args k →
    ∀ F O text : Str, l.args = [F, O] → W.file F = some text → W.yaml text = some d → yamlMain W line = .ok ⟨k.merge, O, text, c, m⟩

/-! ## References of the configurations -/

theorem maybe_none {K A : Type} {P : Doc K → A → Prop} {o : Option A} (h : Maybe P none o) : o = none := by
  cases h
  rfl

theorem source_ref {L : Lib ℝ} {s : Scripts.Slice Ref} {o : Document.OutSlice ℝ} (h : SliceSays L (sliceDoc s) o) {r : Ref} (hr : r ∈ o.baseModel.toList ++ o.sources.map (fun x => x.model)) :
    ModelRef.parse s.model.print = .ok r := by
  unfold sliceDoc at h
  cases h with
  | mk h1 h2 h3 h4 =>
    have hb := maybe_none (show Maybe RefSays none _ from h2)
    subst hb
    obtain ⟨v, hv, hl⟩ := h1
    have hv' : v = .list [.dict [(cs!"model", .str s.model.print), (cs!"layer_range", .list [.int s.start, .int s.stop])]] := (Option.some.inj hv).symm
    subst hv'
    cases hl with
    | mk hl =>
      cases hl with
      | cons ha hb =>
        cases hb
        cases ha with
        | mk g1 g2 g3 g4 g5 =>
          obtain ⟨w, hw, hwr⟩ := g1
          have hw' : w = .str s.model.print := (Option.some.inj hw).symm
          subst hw'
          cases hwr with
          | text hp =>
            simp only [Option.toList_none, List.nil_append, List.map_cons, List.map_nil, List.mem_singleton] at hr
            rw [hr]
            exact hp

theorem shuffle_conf_refs {L : Lib ℝ} {slices : List (Scripts.Slice Ref)} {fp16 : Bool} {c : Conf ℝ} (h : read L (shuffleDoc slices fp16) = .ok c) :
    c.vocabs = [] ∧ ∀ r ∈ c.refs, ∃ s ∈ slices, ModelRef.parse s.model.print = .ok r := by
  have hs := C130_reads (show read L (.dict [(cs!"merge_method", .str cs!"passthrough"), (cs!"slices", .list (slices.map sliceDoc)), (cs!"dtype", orNull (if fp16 then some cs!"float16" else none))]) = .ok c from h)
  have h1 := maybe_none (show Maybe _ none _ from hs.modules)
  have h3 := maybe_none (show Maybe _ none _ from hs.models)
  have h4 := maybe_none (show Maybe _ none _ from hs.baseModel)
  have h5 := maybe_none (show Maybe _ none _ from hs.tokenizerSource)
  have h6 := maybe_none (show Maybe _ none _ from hs.tokenizer)
  have h2 : Maybe (Listed (SliceSays L)) (some (.list (slices.map sliceDoc))) c.slices := hs.slices
  have hv : c.vocabs = [] := by
    unfold Document.Conf.vocabs
    rw [h5, h6]
    rfl
  refine ⟨hv, fun r hr => ?_⟩
  unfold Document.Conf.refs at hr
  rw [h1, h3, h4, hv, h6] at hr
  generalize hsl : c.slices = sl at h2 hr
  cases h2 with
  | given _ hl =>
    cases hl with
    | mk hl =>
      rename_i as
      simp only [Option.getD_some, Option.getD_none, List.flatMap_nil, List.nil_append, List.map_nil, Option.toList_none, Option.bind_none, List.append_nil, Document.sliceRefs, List.mem_flatMap] at hr
      obtain ⟨o, ho, hro⟩ := hr
      obtain ⟨i, hi, rfl⟩ := List.getElem_of_mem ho
      have hlen := hl.length_eq
      have hi' : i < (slices.map sliceDoc).length := by omega
      have hg := (List.forall₂_iff_get.1 hl).2 i hi' hi
      simp only [List.get_eq_getElem, List.getElem_map] at hg
      rw [List.length_map] at hi'
      exact ⟨slices[i], List.getElem_mem hi', source_ref hg hro⟩

theorem choose_mem {ms : List Ref} {ws : List ℝ} {x : ℝ} {m : Ref} (h : Scripts.choose ms ws x = .ok m) : m ∈ ms := by
  unfold Scripts.choose at h
  split at h
  · cases h
  · simp only at h
    split at h
    · cases h
    · split at h
      · rename_i m' hm
        cases h
        exact List.mem_of_getElem? hm
      · cases h

theorem shuffleFrom_mem {ms : List Ref} {ws : List ℝ} {x : Nat → ℝ} : ∀ (n : Nat) {rev : List (Scripts.Slice Ref)} {i : Nat} {out : List (Scripts.Slice Ref)},
    Scripts.shuffleFrom ms ws x rev i n = .ok out → (∀ s ∈ rev, s.model ∈ ms) → ∀ s ∈ out, s.model ∈ ms
  | 0, rev, i, out, h, hrev => by
    cases h
    intro s hs
    exact hrev s (List.mem_reverse.1 hs)
  | n + 1, rev, i, out, h, hrev => by
    unfold Scripts.shuffleFrom at h
    split at h
    · cases h
    · rename_i m hm
      refine shuffleFrom_mem n h ?_
      intro s hs
      unfold Scripts.addLayer at hs
      split at hs
      · rw [List.mem_singleton] at hs
        rw [hs]
        exact choose_mem hm
      · rename_i last rest
        simp only [Scripts.equalsText, Bool.false_eq_true, if_false, List.mem_cons] at hs
        rcases hs with rfl | rfl | hs
        · exact choose_mem hm
        · exact hrev _ (by simp)
        · exact hrev _ (by simp [hs])

theorem randomFrom_mem {layers : Ref → Nat} {draw : Nat → Nat → Nat} : ∀ {ms : List Ref} {ws : List ℝ} {i : Nat}, ∀ s ∈ Scripts.randomFrom layers draw i ms ws, s.model ∈ ms
  | [], ws, i, s, hs => by simp [Scripts.randomFrom] at hs
  | m :: ms, [], i, s, hs => by simp [Scripts.randomFrom] at hs
  | m :: ms, w :: ws, i, s, hs => by
    unfold Scripts.randomFrom at hs
    rcases List.mem_append.1 hs with h | h
    · unfold Scripts.randomSlices at h
      obtain ⟨j, -, rfl⟩ := List.mem_map.1 h
      simp
    · exact List.mem_cons_of_mem _ (randomFrom_mem s h)

theorem slices_mem {D : Dice} (hmix : ∀ l, (D.mix l).Perm l) {q : Wish} {slices : List (Scripts.Slice Ref)}
    (h : (if q.random then Scripts.fullRandom q.models D.layers q.weights D.draw D.mix else Scripts.shuffle q.models D.layers q.weights D.random) = .ok slices) :
    ∀ s ∈ slices, s.model ∈ q.models := by
  split at h
  · unfold Scripts.fullRandom at h
    split at h
    · cases h
    · rename_i hm
      cases h
      intro s hs
      exact randomFrom_mem s ((hmix _).mem_iff.1 hs)
  · unfold Scripts.shuffle at h
    split at h
    · cases h
    · rename_i hm
      exact shuffleFrom_mem _ h (by simp)

/-! ## The commands -/

theorem prepare_iff {W : World} {k : CommandLine.Call} {d : Doc ℝ} {p : Prepared} (h : prepare W k d = .ok p) :
    read W.lib d = .ok p.conf ∧ getMethod W.chance p.conf.mergeMethod = some p.method := by
  unfold prepare at h
  split at h
  · cases h
  · rename_i c hc
    split at h
    · cases h
    · rename_i m hm
      cases h
      exact ⟨hc, hm⟩

theorem repeats_of {W : World} {d : Doc ℝ} {c : Conf ℝ} {m : Method} (h : read W.lib d = .ok c) (hm : getMethod W.chance c.mergeMethod = some m) : Repeats W d c m := by
  intro line l k hk hk' F O text hargs hf hy
  exact (C131_main W l _).2 ⟨F, k, d, hk, hk', hargs, rfl, hf, hy, h, hm⟩

theorem getD_mark (l : List Bool) : l.getLast?.getD false = true ↔ l.getLast? = some true := by
  cases l.getLast? with
  | none => simp
  | some b => simp

/-- **C148** What `mergekit-layershuffle` prints (with `--print-yaml`) and writes (with `--write-yaml`, to the file named): given to `mergekit-yaml` it makes exactly the merge that the shuffle makes, or,
after a dry run, would have made with the same random numbers without `--dry-run`; for models whose names can be written without quotes. -/
theorem C148_shuffle (W : World) (D : Dice) (hmix : ∀ l, (D.mix l).Perm l) (float : Str → Option ℝ) {line line' : List Str} (l : Line CommandLine.layershuffle.opts line)
    (l' : Line CommandLine.layershuffle.opts line') {k : CommandLine.Call} (hk : Enough CommandLine.layershuffle l.events l.args) (hk' : Called CommandLine.layershuffle l.events l.args k)
    {q : Wish} (hq : Wishes float l.events q) (hplain : ∀ r ∈ q.models, r.Plain ∧ '"' ∉ r.print ∧ ' ' ∉ r.print)
    (hq' : Wishes float l'.events { q with dry := false }) {p : Prepared} (h : shuffleMain W D float line' = .ok (some p)) :
    (shufflePrints W D float line ≠ none ↔ (marksOf (yesNo cs!"print_yaml" cs!"print-yaml") l.events).getLast? = some true) ∧
    (∀ F, (∃ d, shuffleWrites W D float line = some (F, d)) ↔ F ≠ [] ∧ (valuesOf (one cs!"write_yaml" cs!"write-yaml") l.events).getLast? = some F) ∧
    ∀ d, (shufflePrints W D float line = some d ∨ ∃ F, shuffleWrites W D float line = some (F, d)) → Repeats W d p.conf p.method := by
  obtain ⟨k2, q2, e1, e2, -⟩ := shuffleMain_wishes W D float l' h
  rw [shuffleMain_eq W D float l' e1 e2 hq'] at h
  simp only at h
  have hargs := shuffleArguments_eq D float l hk hk' hq
  cases hsl : (if q.random then Scripts.fullRandom q.models D.layers q.weights D.draw D.mix else Scripts.shuffle q.models D.layers q.weights D.random) with
  | error e => rw [hsl] at h; cases h
  | ok slices =>
    rw [hsl] at h hargs
    simp only at h hargs
    cases hp : prepare W k2 (shuffleDoc slices q.fp16) with
    | error e => rw [hp] at h; cases h
    | ok p' =>
      rw [hp] at h
      simp only [Bool.false_eq_true, if_false, Except.ok.injEq, Option.some.injEq] at h
      subst h
      obtain ⟨hr, hm⟩ := prepare_iff hp
      obtain ⟨hv, hrefs⟩ := shuffle_conf_refs hr
      have hback : read W.lib (Document.dump true p'.conf) = .ok p'.conf := by
        refine C130_round_trip hr ?_ (by rw [hv]; simp) true
        intro r hrr
        obtain ⟨s, hs, hpar⟩ := hrefs r hrr
        have hmem := slices_mem hmix hsl s hs
        rw [ModelRef.C24_parse_print _ (hplain _ hmem).1] at hpar
        cases hpar
        exact Or.inr (hplain _ hmem)
      have hconf : configuration W (shuffleDoc slices q.fp16) = some (Document.dump true p'.conf) := by
        unfold configuration
        rw [hr]
      have o1 := flagOf_called shuffle_mem hk' (o := yesNo cs!"print_yaml" cs!"print-yaml") (by decide +kernel) rfl false
      have o2 := wordOf_called shuffle_mem hk' (o := one cs!"write_yaml" cs!"write-yaml") (by decide +kernel) rfl
      have hprints : shufflePrints W D float line = if (marksOf (yesNo cs!"print_yaml" cs!"print-yaml") l.events).getLast?.getD false then some (Document.dump true p'.conf) else none := by
        unfold shufflePrints
        rw [hargs]
        simp only
        rw [hconf]
        exact congrArg (fun b : Bool => if b then some (Document.dump true p'.conf) else none) o1
      have hwrites : shuffleWrites W D float line = match (valuesOf (one cs!"write_yaml" cs!"write-yaml") l.events).getLast? with
          | none => none
          | some f => if f = [] then none else some (f, Document.dump true p'.conf) := by
        unfold shuffleWrites
        rw [hargs]
        simp only
        rw [hconf]
        rw [← o2]
        rfl
      refine ⟨?_, ?_, ?_⟩
      · rw [hprints, ← getD_mark]
        split <;> simp_all
      · intro F
        rw [hwrites]
        cases (valuesOf (one cs!"write_yaml" cs!"write-yaml") l.events).getLast? with
        | none => simp
        | some f =>
          by_cases hf : f = []
          · subst hf
            simp only [if_true, reduceCtorEq, exists_false, Option.some.injEq, false_iff, not_and]
            exact fun h1 h2 => h1 h2.symm
          · simp only [if_neg hf, Option.some.injEq, Prod.mk.injEq, exists_and_left, exists_eq', and_true]
            constructor
            · rintro rfl
              exact ⟨hf, rfl⟩
            · exact fun h => h.2
      · intro d hd
        have : d = Document.dump true p'.conf := by
          rcases hd with hd | ⟨F, hd⟩
          · rw [hprints] at hd
            split at hd
            · exact (Option.some.inj hd).symm
            · cases hd
          · rw [hwrites] at hd
            split at hd
            · cases hd
            · split at hd
              · cases hd
              · cases hd
                rfl
        subst this
        exact repeats_of hback hm

theorem model_ref {L : Lib ℝ} {w : Str} {x : Doc ℝ} {o : Document.InModel ℝ} (h : ModelSays L (.dict [(cs!"model", .str w), (cs!"parameters", x)]) o) : ModelRef.parse w = .ok o.model := by
  cases h with
  | mk g1 g2 =>
    obtain ⟨v, hv, hwr⟩ := g1
    have hv' : v = .str w := (Option.some.inj hv).symm
    subst hv'
    cases hwr with
    | text hp => exact hp

theorem legacy_conf_refs {L : Lib ℝ} {q : Asked} {c : Conf ℝ} (h : read L (.dict q.document) = .ok c) :
    c.vocabs = [] ∧ ∀ r ∈ c.refs, ∃ w, (w ∈ q.merge ∨ q.base = some w) ∧ ModelRef.parse w = .ok r := by
  have hs := C130_reads h
  have h1 := maybe_none (show Maybe _ none _ from hs.modules)
  have h2 := maybe_none (show Maybe _ none _ from hs.slices)
  have h5 := maybe_none (show Maybe _ none _ from hs.tokenizerSource)
  have h6 := maybe_none (show Maybe _ none _ from hs.tokenizer)
  have h3 : Maybe (Listed (ModelSays L)) (some (.list ((listed q.merge q.base).zipIdx.map (fun m => .dict [(cs!"model", .str m.1), (cs!"parameters", .dict ((q.params m.2).map (fun e => (e.1, .float e.2))))])))) c.models :=
    hs.models
  have h4 : Maybe RefSays (some (match q.base with | none => .null | some b => .str b)) c.baseModel := hs.baseModel
  have hlisted : ∀ w ∈ listed q.merge q.base, w ∈ q.merge ∨ q.base = some w := by
    intro w hw
    cases hb : q.base with
    | none => rw [hb] at hw; exact Or.inl hw
    | some b =>
      rw [hb] at hw
      unfold listed at hw
      simp only at hw
      by_cases hc : b = [] ∨ b ∈ q.merge
      · rw [if_pos hc] at hw
        exact Or.inl hw
      · rw [if_neg hc, List.mem_append, List.mem_singleton] at hw
        exact hw.imp id (fun h => by rw [h])
  have hv : c.vocabs = [] := by
    unfold Document.Conf.vocabs
    rw [h5, h6]
    rfl
  refine ⟨hv, fun r hr => ?_⟩
  unfold Document.Conf.refs at hr
  rw [h1, h2, hv, h6] at hr
  simp only [Option.getD_none, List.flatMap_nil, List.nil_append, Document.sliceRefs, Option.bind_none, Option.toList_none, List.append_nil, List.mem_append] at hr
  rcases hr with hr | hr
  · generalize hmo : c.models = mo at h3 hr
    cases h3 with
    | given _ hl =>
      cases hl with
      | mk hl =>
        rw [Option.getD_some] at hr
        obtain ⟨o, ho, rfl⟩ := List.mem_map.1 hr
        obtain ⟨i, hi, rfl⟩ := List.getElem_of_mem ho
        have hlen := hl.length_eq
        have hi' : i < ((listed q.merge q.base).zipIdx.map (fun m => (.dict [(cs!"model", .str m.1), (cs!"parameters", .dict ((q.params m.2).map (fun e => (e.1, .float e.2))))] : Doc ℝ))).length := by omega
        have hg := (List.forall₂_iff_get.1 hl).2 i hi' hi
        simp only [List.get_eq_getElem, List.getElem_map, List.getElem_zipIdx] at hg
        rw [List.length_map, List.length_zipIdx] at hi'
        refine ⟨(listed q.merge q.base)[i], hlisted _ (List.getElem_mem hi'), ?_⟩
        exact model_ref hg
  · rw [Option.mem_toList] at hr
    rw [hr] at h4
    cases hb : q.base with
    | none => rw [hb] at h4; cases h4 with | given hne _ => exact absurd rfl hne
    | some b =>
      rw [hb] at h4
      cases h4 with
      | given _ hx =>
        cases hx with
        | text hp => exact ⟨b, Or.inr rfl, hp⟩

/-- **C148** What `mergekit-legacy` prints with `--print-yaml`: given to `mergekit-yaml` it makes the same merge; for models whose names can be written without quotes. -/
theorem C148_legacy (W : World) (float : Str → Option ℝ) {line : List Str} (l : Line CommandLine.legacy.opts line) {p : Prepared} (h : legacyMain W float line = .ok p)
    (hplain : ∀ w, (w ∈ valuesOf (several cs!"merge" cs!"merge") l.events ∨ (valuesOf (one cs!"base_model" cs!"base-model") l.events).getLast? = some w) → ∀ r, ModelRef.parse w = .ok r → Writable r) :
    (legacyPrints W float line ≠ none ↔ (marksOf (yesNo cs!"print_yaml" cs!"print-yaml") l.events).getLast? = some true) ∧
    ∀ d, legacyPrints W float line = some d → Repeats W d p.conf p.method := by
  obtain ⟨k, q, hk, hk', -, -, -, hq, -, hread, hm⟩ := (C137_main W float l p).1 h
  obtain ⟨hv, hrefs⟩ := legacy_conf_refs hread
  have hback : read W.lib (Document.dump true p.conf) = .ok p.conf := by
    refine C130_round_trip hread ?_ (by rw [hv]; simp) true
    intro r hr
    obtain ⟨w, hw, hpar⟩ := hrefs r hr
    rw [← hq.merge, ← hq.base] at hw
    exact hplain w hw r hpar
  have hcall := (CommandLine.C128_call legacy_mem l k).2 ⟨hk, hk'⟩
  have hargs : ∃ d, legacyArguments float line = .ok (k, d) ∧ read W.lib d = .ok p.conf := by
    unfold legacyMain at h
    cases ha : legacyArguments float line with
    | error e => rw [ha] at h; cases h
    | ok r =>
      rw [ha] at h
      refine ⟨r.2, ?_, (prepare_iff h).1⟩
      have : r.1 = k := by
        unfold legacyArguments at ha
        rw [hcall] at ha
        simp only at ha
        split at ha
        · split at ha
          · cases ha
          · cases ha
            rfl
        · cases ha
      rw [← this]
  obtain ⟨d0, ha, hr0⟩ := hargs
  have o1 := flagOf_called legacy_mem hk' (o := yesNo cs!"print_yaml" cs!"print-yaml") (by decide +kernel) rfl false
  have hprints : legacyPrints W float line = if (marksOf (yesNo cs!"print_yaml" cs!"print-yaml") l.events).getLast?.getD false then some (Document.dump true p.conf) else none := by
    unfold legacyPrints configuration
    rw [ha]
    simp only
    rw [hr0]
    exact congrArg (fun b : Bool => if b then some (Document.dump true p.conf) else none) o1
  refine ⟨?_, ?_⟩
  · rw [hprints, ← getD_mark]
    split <;> simp_all
  · intro d hd
    rw [hprints] at hd
    split at hd
    · cases hd
      exact repeats_of hback hm
    · cases hd

/-! ## Cases -/

/-- `mergekit-layershuffle o -m a -m b -w 1 -w 3 --print-yaml --write-yaml f --dry-run`. -/
def dryLine : Line CommandLine.layershuffle.opts [cs!"o", cs!"-m", cs!"a", cs!"-m", cs!"b", cs!"-w", cs!"1", cs!"-w", cs!"3", cs!"--print-yaml", cs!"--write-yaml", cs!"f", cs!"--dry-run"] where
  uses := [.plain cs!"o", .marksNext [] modelOpt 'm' cs!"a", .marksNext [] modelOpt 'm' cs!"b", .marksNext [] weightOpt 'w' cs!"1", .marksNext [] weightOpt 'w' cs!"3",
    .flag (yesNo cs!"print_yaml" cs!"print-yaml") cs!"--print-yaml" true, .next (one cs!"write_yaml" cs!"write-yaml") cs!"--write-yaml" cs!"f", .flag dryOpt cs!"--dry-run" true]
  after := none
  fits := by
    intro u hu
    simp only [List.mem_cons, List.not_mem_nil, or_false] at hu
    rcases hu with rfl | rfl | rfl | rfl | rfl | rfl | rfl | rfl
    · exact show ¬ _ by decide
    iterate 4 exact ⟨(by intro e he; cases he), by decide +kernel, by decide +kernel, by decide +kernel, CommandLine.notLong_of (by decide +kernel)⟩
    all_goals exact ⟨by decide +kernel, by decide +kernel, by decide +kernel, by decide +kernel⟩
  written := by decide +kernel

theorem dry_wishes : Wishes someFloat dryLine.events { shuffleWish with dry := true } where
  models := by
    have : valuesOf modelOpt dryLine.events = [cs!"a", cs!"b"] := by decide +kernel
    rw [this]
    exact .cons rfl (.cons rfl .nil)
  weights := by
    have : valuesOf weightOpt dryLine.events = [cs!"1", cs!"3"] := by decide +kernel
    rw [this]
    exact .cons (by simp [someFloat]) (.cons (by simp [someFloat]) .nil)
  fp16 := by decide +kernel
  random := by decide +kernel
  dry := by decide +kernel

/-- The hypotheses are met: a dry run merges nothing, but prints and writes to "f" what `mergekit-yaml` makes the same merge from as the line without the last options makes. -/
theorem C148_dry_case (ch : WholeMerge.Chance) (lib : Lib ℝ) (D : Dice) (hD : ∀ r, D.layers r = 2) (hrandom : ∀ i, 0 ≤ D.random i ∧ D.random i < 1) (hmix : ∀ l, (D.mix l).Perm l) :
    ∃ p d, shuffleMain (flatWorld ch lib) D someFloat [cs!"o", cs!"-m", cs!"a", cs!"-m", cs!"b", cs!"-w", cs!"1", cs!"-w", cs!"3"] = .ok (some p) ∧
      shuffleWrites (flatWorld ch lib) D someFloat [cs!"o", cs!"-m", cs!"a", cs!"-m", cs!"b", cs!"-w", cs!"1", cs!"-w", cs!"3", cs!"--print-yaml", cs!"--write-yaml", cs!"f", cs!"--dry-run"] =
        some (cs!"f", d) ∧
      shufflePrints (flatWorld ch lib) D someFloat [cs!"o", cs!"-m", cs!"a", cs!"-m", cs!"b", cs!"-w", cs!"1", cs!"-w", cs!"3", cs!"--print-yaml", cs!"--write-yaml", cs!"f", cs!"--dry-run"] ≠ none ∧
      Repeats (flatWorld ch lib) d p.conf p.method := by
  obtain ⟨-, -, -, p, hp, -, -⟩ := shuffle_case ch lib D hD hrandom
  have hcall : ∃ k, CommandLine.call CommandLine.layershuffle
      [cs!"o", cs!"-m", cs!"a", cs!"-m", cs!"b", cs!"-w", cs!"1", cs!"-w", cs!"3", cs!"--print-yaml", cs!"--write-yaml", cs!"f", cs!"--dry-run"] = .ok k := ⟨_, rfl⟩
  obtain ⟨k, hk⟩ := hcall
  obtain ⟨h1, h2⟩ := (CommandLine.C128_call shuffle_mem dryLine k).1 hk
  obtain ⟨g1, g2, g3⟩ := C148_shuffle (flatWorld ch lib) D hmix someFloat dryLine shuffleLine h1 h2 dry_wishes
    (by
      intro x hx
      simp only [shuffleWish, List.mem_cons, List.not_mem_nil, or_false] at hx
      rcases hx with rfl | rfl
      all_goals exact ⟨⟨⟨by unfold ModelRef.NoSep; decide, (by rintro r hr; cases hr)⟩, (by rintro l hl; cases hl), rfl⟩, by decide +kernel, by decide +kernel⟩)
    shuffle_wishes hp
  obtain ⟨d, hd⟩ := (g2 cs!"f").2 ⟨by decide, by decide +kernel⟩
  exact ⟨p, d, hp, hd, g1.2 (by decide +kernel), g3 d (Or.inr ⟨_, hd⟩)⟩

/-- `mergekit-legacy o --merge b --method linear --print-yaml`. -/
def printLine : Line CommandLine.legacy.opts [cs!"o", cs!"--merge", cs!"b", cs!"--method", cs!"linear", cs!"--print-yaml"] where
  uses := [.plain cs!"o", .next (several cs!"merge" cs!"merge") cs!"--merge" cs!"b", .next (one cs!"method" cs!"method") cs!"--method" cs!"linear",
    .flag (yesNo cs!"print_yaml" cs!"print-yaml") cs!"--print-yaml" true]
  after := none
  fits := by
    intro u hu
    simp only [List.mem_cons, List.not_mem_nil, or_false] at hu
    rcases hu with rfl | rfl | rfl | rfl
    · exact show ¬ _ by decide
    all_goals exact ⟨by decide +kernel, by decide +kernel, by decide +kernel, by decide +kernel⟩
  written := by decide +kernel

/-- The hypotheses are met. -/
theorem C148_print_case (W : World) : ∃ p d, legacyMain W someFloat [cs!"o", cs!"--merge", cs!"b", cs!"--method", cs!"linear", cs!"--print-yaml"] = .ok p ∧
    legacyPrints W someFloat [cs!"o", cs!"--merge", cs!"b", cs!"--method", cs!"linear", cs!"--print-yaml"] = some d ∧ Repeats W d p.conf p.method := by
  have hcall : ∃ k, CommandLine.call CommandLine.legacy [cs!"o", cs!"--merge", cs!"b", cs!"--method", cs!"linear", cs!"--print-yaml"] = .ok k := ⟨_, rfl⟩
  obtain ⟨k, hk⟩ := hcall
  obtain ⟨h1, h2⟩ := (CommandLine.C128_call legacy_mem printLine k).1 hk
  have hm : ∃ m, getMethod W.chance cs!"linear" = some m :=
    ⟨_, WholeMerge.getMethod_mem W.chance ⟨"linear".toList, [⟨"normalize".toList, false, some (WholeMerge.flag true)⟩], [⟨"weight".toList, true, none⟩], WholeMerge.linearTask⟩
      (WholeMerge.mem_static _ _ (by simp [WholeMerge.staticMethods]))⟩
  obtain ⟨m, hm⟩ := hm
  have hread : ∃ c, read W.lib (.dict (⟨[cs!"b"], none, [], [], cs!"linear", true, false, false, false⟩ : Asked).document) = .ok c ∧ c.mergeMethod = cs!"linear" := ⟨_, rfl, rfl⟩
  obtain ⟨c, hc, hcm⟩ := hread
  have hp : legacyMain W someFloat [cs!"o", cs!"--merge", cs!"b", cs!"--method", cs!"linear", cs!"--print-yaml"] = .ok ⟨k.merge, cs!"o", [], c, m⟩ :=
    (C137_main W someFloat printLine _).2 ⟨k, ⟨[cs!"b"], none, [], [], cs!"linear", true, false, false, false⟩, h1, h2, rfl, rfl, rfl,
      ⟨by decide +kernel, .nil, .nil, by decide +kernel, by decide +kernel, by decide +kernel, by decide +kernel, by decide +kernel, by decide +kernel⟩,
      ⟨by unfold Scripts.fits; simp, by rw [if_neg (by decide)]; unfold Scripts.fits; simp⟩, hc, by rw [hcm]; exact hm⟩
  obtain ⟨g1, g2⟩ := C148_legacy W someFloat printLine hp
    (by
      intro w hw r hr
      have e1 : valuesOf (several cs!"merge" cs!"merge") printLine.events = [cs!"b"] := by decide +kernel
      have e2 : (valuesOf (one cs!"base_model" cs!"base-model") printLine.events).getLast? = none := by decide +kernel
      rw [e1, e2] at hw
      simp only [List.mem_singleton, reduceCtorEq, or_false] at hw
      subst hw
      cases hr
      exact Or.inr ⟨⟨⟨by unfold ModelRef.NoSep; decide, (by rintro r hr; cases hr)⟩, (by rintro l hl; cases hl), rfl⟩, by decide +kernel, by decide +kernel⟩)
  have hne := g1.2 (by decide +kernel)
  obtain ⟨d, hd⟩ := Option.ne_none_iff_exists'.1 hne
  exact ⟨_, d, hp, hd, g2 d hd⟩

/-- **C148** Nothing is shown or written unless the configuration is valid: a command that fails for another reason than a method that does not exist prints nothing and writes no file. -/
theorem C148_only_valid (W : World) (D : Dice) (float : Str → Option ℝ) (line : List Str) (e : ScriptErr) (he : e ≠ .noMethod) :
    (legacyMain W float line = .error e → legacyPrints W float line = none) ∧
    (shuffleMain W D float line = .error e → shufflePrints W D float line = none ∧ shuffleWrites W D float line = none) := by
  have hconf : ∀ k d, prepare W k d = .error e → configuration W d = none := by
    intro k d h
    unfold prepare at h
    unfold configuration
    cases hr : read W.lib d with
    | error _ => rfl
    | ok c =>
      rw [hr] at h
      simp only at h
      cases hm : getMethod W.chance c.mergeMethod with
      | none => rw [hm] at h; exact absurd (Except.error.inj h).symm he
      | some m => rw [hm] at h; cases h
  constructor
  · intro h
    unfold legacyMain at h
    unfold legacyPrints
    cases ha : legacyArguments float line with
    | error _ => rfl
    | ok r =>
      rw [ha] at h
      simp only at h
      simp only [hconf _ _ h, ite_self]
  · intro h
    unfold shuffleMain at h
    unfold shufflePrints shuffleWrites
    cases ha : shuffleArguments D float line with
    | error _ => exact ⟨rfl, rfl⟩
    | ok r =>
      rw [ha] at h
      simp only at h
      cases hp : prepare W r.1 r.2 with
      | ok p => rw [hp] at h; cases h
      | error e' =>
        rw [hp] at h
        obtain rfl := Except.error.inj h
        simp only [hconf _ _ hp, ite_self, Option.map_none, true_and]
        cases wordOf r.1 cs!"write_yaml" <;> rfl

/-- The hypotheses are met: a model with two adapters. -/
theorem C148_invalid_case (W : World) : ∃ e, e ≠ ScriptErr.noMethod ∧ legacyMain W someFloat [cs!"o", cs!"--merge", cs!"a+b+c", cs!"--print-yaml"] = .error e ∧
    legacyPrints W someFloat [cs!"o", cs!"--merge", cs!"a+b+c", cs!"--print-yaml"] = none := by
  have h : ∃ e, legacyMain W someFloat [cs!"o", cs!"--merge", cs!"a+b+c", cs!"--print-yaml"] = .error (.config e) := ⟨_, rfl⟩
  obtain ⟨e, h⟩ := h
  exact ⟨_, by simp, h, (C148_only_valid W ⟨fun _ => 0, fun _ => 0, fun _ _ => 0, id⟩ someFloat _ _ (by simp)).1 h⟩

end Verif.Main
