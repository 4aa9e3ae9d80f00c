import Verif.Props.WholeTok
import Verif.Props.WholeMethod

/-! # C115: any merge method with a tokenizer, from the configuration to the files -/

set_option linter.unusedSectionVars false

namespace Verif.WholeTok

open Verif.ModelRef (Str Ref)
open Verif.LoadTask (LoadTensor WeightInfo Casts Loader ownTensors typeNames wanted)
open Verif.Plan
open Verif.Config
open Verif.Pipeline
open Verif.WholeMerge (Setup RunErr Stored Told planned Sections Usable Place LeftOut Readable View viewOf Ready Outcome)

section
variable {K : Type} [Field K] [LinearOrder K] [IsStrictOrderedRing K] [FloorRing K]

/-! ## Specification -/

/-- What a run leaves behind, for all places of a configuration: it ends without an exception, keeps the tokenizer `i`, and whatever was written in
whatever order, the output lists exactly the names of the places not left out, and reading one of these gives something that is right for it. -/
def Delivers {T E I : Type} (env : Env K) (c : MergeConfig K) (l : List (String × OutModule K)) (s : TokSetup K T E I) (i : I)
    (right : String × OutModule K → WeightInfo → OutSlice K → K → List (Ref × WeightInfo) → T → Prop) : Prop :=
  ∀ (group : Job K → String) (prio : Job K → Int) (pop : ∀ n, Graph.PopOracle n) (conf : Writer.Conf) (size : T → Nat), conf.Standard →
    ∃ mods, plan env c = .ok mods ∧
    ∃ trace, runTasks (jobs K s.dtype) group prio (execJob s) pop (targets (planned mods)) = some (trace, .finished) ∧
      keptInfo (handed (universeOf (jobs K s.dtype) (targets (planned mods))).1 trace) = some i ∧
      let acts := writerRun conf size {} (handed (universeOf (jobs K s.dtype) (targets (planned mods))).1 trace)
      ∃ fs, Writer.applyOps (fun _ => none) (Writer.syncOps acts) = some fs ∧
        (∀ r, Relation.ReflTransGen Writer.Step ⟨fun _ => none, [], acts⟩ r → (∀ r', ¬ Writer.Step r r') → r.fs = fs) ∧
        ∃ idx, Writer.fromDisk fs = .ok idx ∧
          (∀ name, name ∈ idx.tensorPaths.map Prod.fst ↔ ∃ e ∈ l, ∃ w sl t ins,
            Place env e.1 (e.2.slices.getD []) w sl t ins ∧ ¬ LeftOut env w ins ∧ name = String.ofList w.name) ∧
          ∀ e ∈ l, ∀ w sl t ins, Place env e.1 (e.2.slices.getD []) w sl t ins → ¬ LeftOut env w ins →
            ∃ z, right e w sl t ins z ∧ ∀ hist aliases raise,
              (Writer.getTensor fs idx (Writer.afterHistory fs idx none hist) (String.ofList w.name) aliases raise).1 = .ok (some z)

/-- The method `f` on embeddings re-indexed for the tokenizer `i`, and on other tensors as they are. -/
def onTokens {T E I : Type} (s : TokSetup K T E I) (i : I) (f : View K → List (Ref × T) → Except E (Option T)) (v : View K) (ts : List (Ref × T)) :
    Except E (Option T) :=
  if v.weight.isEmbed then (s.reindex v.base i ts).bind (f v) else f v ts

/-! ## Proof -/

/-- The same setup with the re-indexing as part of the method. -/
def composed {T E I : Type} (s : TokSetup K T E I) (i : I) : Setup K T E :=
  { s.toSetup with method := fun p ts => if p.weight.isEmbed then (s.reindex p.baseModel i ts).bind (s.method p) else s.method p ts }

theorem expected_composed {T E I : Type} (s : TokSetup K T E I) (i : I) (p : Planned K) (r : Option T)
    (h : WholeMerge.Expected (composed s i) p r) : Expected s i p r := by
  obtain ⟨own, h1, h2⟩ := h
  have hst : ∀ y z, Stored (composed s i) p.weight y z → Stored s.toSetup p.weight y z := by
    intro y z hz
    cases hz with
    | unchanged h => exact .unchanged h
    | cast n d h3 h4 h5 => exact .cast n d h3 h4 h5
  by_cases he : p.weight.isEmbed = true
  · cases hr : s.reindex p.baseModel i own with
    | error e => simp [composed, he, hr, Except.bind] at h2
    | ok ts =>
      refine ⟨ts, ⟨own, h1, fun hf => absurd (he.symm.trans hf) (by simp), fun _ => hr⟩, ?_⟩
      have hm : (composed s i).method p own = s.method p ts := by simp [composed, he, hr, Except.bind]
      rw [hm] at h2
      rcases h2 with ⟨y, z, a, b, c⟩ | h2
      · exact Or.inl ⟨y, z, a, hst y z b, c⟩
      · exact Or.inr h2
  · refine ⟨own, ⟨own, h1, fun _ => rfl, fun hf => absurd hf he⟩, ?_⟩
    have hm : (composed s i).method p own = s.method p own := by simp [composed, he]
    rw [hm] at h2
    rcases h2 with ⟨y, z, a, b, c⟩ | h2
    · exact Or.inl ⟨y, z, a, hst y z b, c⟩
    · exact Or.inr h2

/-- If the tokenizer is built, all that is needed can be read and the method gives something right for every place, the run delivers. -/
theorem usable_delivers {T E I : Type} (env : Env K) (c : MergeConfig K) (l : List (String × OutModule K)) (hl : Sections env c l)
    (hu : Usable env l) (s : TokSetup K T E I) (i : I) (hi : s.build = .ok i)
    (right : String × OutModule K → WeightInfo → OutSlice K → K → List (Ref × WeightInfo) → T → Prop)
    (h : ∀ c' : MergeConfig K, c'.baseModel = c.baseModel → c'.parameters = c.parameters → ∀ e ∈ l, ∀ w sl t ins,
      Place env e.1 (e.2.slices.getD []) w sl t ins → ¬ LeftOut env w ins → (ins.map Prod.fst).Nodup →
      Readable env (sliceReader c' e.2 sl t) w ins ∧
      ∀ p, TensorPlan env (sliceReader c' e.2 sl t) w ins (some p) → p.inputs = ins → p.weight = w →
        p.baseModel = (sliceReader c' e.2 sl t).baseModel → ∃ z, right e w sl t ins z ∧ WholeMerge.Expected (composed s i) p (some z)) :
    Delivers env c l s i right := by
  intro group prio pop conf size hstd
  obtain ⟨c', mods, h2, h3, hplan, hfrom, hto, hpn, hne⟩ := WholeMerge.usable_planned env c l hl hu
    (fun c' a b e he w sl t ins hp hno hn => (h c' a b e he w sl t ins hp hno hn).1)
  refine ⟨mods, hplan, ?_⟩
  have hexp : ∀ p ∈ planned mods, ∃ z, Expected s i p (some z) := by
    intro p hp
    obtain ⟨_, e, he, sl, t, ins, a, hno, hn, htp, h4, h5⟩ := hfrom p hp
    obtain ⟨z, _, hz⟩ := (h c' h2 h3 e he _ sl t ins a hno hn).2 p htp h4 rfl h5
    exact ⟨z, expected_composed s i p _ hz⟩
  obtain ⟨trace, o, hr, hiff, hdisk⟩ := C115_merge_to_disk s (planned mods) (fun p hp => (hfrom p hp).1) hpn group prio pop conf hstd size
  have ho : o = .finished := hiff.2 ⟨i, hi, fun p hp => by obtain ⟨z, h⟩ := hexp p hp; exact ⟨_, h⟩⟩
  subst ho
  obtain ⟨hkept, hfiles⟩ := hdisk i rfl hi
  refine ⟨trace, hr, hkept, ?_⟩
  obtain ⟨p0, hp0⟩ := List.exists_mem_of_ne_nil _ hne
  obtain ⟨z0, hz0⟩ := hexp p0 hp0
  obtain ⟨fs, g1, g2, idx, g3, g4, g5⟩ := hfiles ⟨p0, hp0, z0, hz0⟩
  refine ⟨fs, g1, g2, idx, g3, ?_, ?_⟩
  · intro name
    rw [g4 name]
    constructor
    · rintro ⟨p, hp, _, _, rfl⟩
      obtain ⟨_, e, he, sl, t, ins, a, hno, _⟩ := hfrom p hp
      exact ⟨e, he, _, sl, t, ins, a, hno, rfl⟩
    · rintro ⟨e, he, w, sl, t, ins, hp, hno, rfl⟩
      obtain ⟨_, p, hp', rfl, _⟩ := hto e he w sl t ins hp hno
      obtain ⟨z, hz⟩ := hexp p hp'
      exact ⟨p, hp', z, hz, rfl⟩
  · intro e he w sl t ins hp hno
    obtain ⟨hn, p, hp', hw, htp, h4, h5⟩ := hto e he w sl t ins hp hno
    obtain ⟨z, hz, hx⟩ := (h c' h2 h3 e he w sl t ins hp hno hn).2 p htp h4 hw h5
    subst hw
    exact ⟨z, hz, g5 p hp' z (expected_composed s i p _ hx)⟩

/-- **C115** Any merge method with a tokenizer, from the configuration to the files.  If the tokenizer can be built and every place that is not left out is
ready (with the method working on re-indexed embeddings), then - whatever order the executor chooses, with or without writer threads, for any shard size and
either format - the merge ends without an exception, keeps that tokenizer, the output lists exactly the names of the places not left out, and what is read for
a place is what the method gives there with the parameters the configuration sets: for an embedding from the models' embeddings re-indexed for that tokenizer,
for anything else from the models' own tensors. -/
theorem C115_any_method {T E I : Type} (env : Env K) (hpn : (env.params.map (·.name)).Nodup) (htn : (env.tensorParams.map (·.name)).Nodup)
    (c : MergeConfig K) (l : List (String × OutModule K)) (hl : Sections env c l) (hu : Usable env l)
    (s : TokSetup K T E I) (i : I) (hi : s.build = .ok i)
    (f : View K → List (Ref × T) → Except E (Option T)) (hf : ∀ p ts, s.method p ts = f (viewOf p) ts)
    (own : Ref → WeightInfo → T)
    (hready : ∀ e ∈ l, ∀ w sl t ins, Place env e.1 (e.2.slices.getD []) w sl t ins → ¬ LeftOut env w ins →
      Ready env c s.toSetup (onTokens s i f) own e.2 w sl t ins) :
    Delivers env c l s i (Outcome env c s.toSetup (onTokens s i f) own) := by
  have hm : ∀ p ts, (composed s i).method p ts = onTokens s i f (viewOf p) ts := by
    intro p ts
    have : (fun x => s.method p x) = f (viewOf p) := funext (hf p)
    simp only [composed, onTokens, hf]
    by_cases he : p.weight.isEmbed = true
    · have he' : (viewOf p).weight.isEmbed = true := he
      rw [if_pos he, if_pos he', ← this]
      rfl
    · have he' : ¬ (viewOf p).weight.isEmbed = true := he
      rw [if_neg he, if_neg he']
  refine usable_delivers env c l hl hu s i hi _ ?_
  intro c' h2 h3 e he w sl t ins hp hno hn
  obtain ⟨h4, h5⟩ := WholeMerge.ready_expected env hpn htn c l (composed s i) (onTokens s i f) hm own
    (fun e he w sl t ins hp hno => by
      obtain ⟨a, b, c, d, e⟩ := hready e he w sl t ins hp hno
      exact ⟨a, b, c, d, e⟩) c' h2 h3 e he w sl t ins hp hno hn
  refine ⟨h4, fun p a b d g => ?_⟩
  obtain ⟨z, ⟨v, y, x1, x2, x3⟩, x4⟩ := h5 p a b d g
  refine ⟨z, ⟨v, y, x1, x2, ?_⟩, x4⟩
  cases x3 with
  | unchanged h => exact .unchanged h
  | cast n d h3 h4 h5 => exact .cast n d h3 h4 h5

/-- What is right for a place may be weakened. -/
theorem delivers_mono {T E I : Type} {env : Env K} {c : MergeConfig K} {l : List (String × OutModule K)} {s : TokSetup K T E I} {i : I}
    {right right' : String × OutModule K → WeightInfo → OutSlice K → K → List (Ref × WeightInfo) → T → Prop} (h : Delivers env c l s i right)
    (hr : ∀ e ∈ l, ∀ w sl t ins z, Place env e.1 (e.2.slices.getD []) w sl t ins → ¬ LeftOut env w ins → right e w sl t ins z →
      right' e w sl t ins z) : Delivers env c l s i right' := by
  intro group prio pop conf size hstd
  obtain ⟨mods, hp, trace, ht, hk, fs, h1, h2, idx, h3, h4, h5⟩ := h group prio pop conf size hstd
  refine ⟨mods, hp, trace, ht, hk, fs, h1, h2, idx, h3, h4, ?_⟩
  intro e he w sl t ins hpl hno
  obtain ⟨z, h6, h7⟩ := h5 e he w sl t ins hpl hno
  exact ⟨z, hr e he w sl t ins z hpl hno h6, h7⟩

end

end Verif.WholeTok
