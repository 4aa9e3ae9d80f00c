import Verif.Model.Lora
import Mathlib.Data.List.TakeWhile

/-! # What is extracted and what is saved at full rank (C79) -/

namespace Verif.Lora

open Verif.ModelRef (Str)

/-- An embedding that must be saved at full rank: adapters for embeddings are off and it is not excluded. -/
def EmbedReason (o : Opts) (m : Module) : Prop :=
  m.hasWeight = true ∧ o.embedLora = false ∧ (m.isEmbed = true ∨ m.kind = .embedding) ∧ o.excluded m.name = false

/-- A module that is selected, cannot be decomposed and must not be skipped. -/
def KindReason (o : Opts) (m : Module) : Prop :=
  m.hasWeight = true ∧ m.kind = .other ∧ o.included m.name = true ∧ o.excluded m.name = false ∧ o.skipUndecomposable = false

/-- A module that is selected and can be decomposed. -/
def Decomposed (o : Opts) (m : Module) : Prop := m.hasWeight = true ∧ m.kind ≠ .other ∧ o.included m.name = true ∧ o.excluded m.name = false

/-- Modules whose names end alike are alike: they have to be saved at full rank or not. -/
def Uniform (o : Opts) (ms : List Module) : Prop :=
  ∀ m ∈ ms, ∀ m' ∈ ms, m.hasWeight = true → m'.hasWeight = true → lastPart m.name = lastPart m'.name →
    (EmbedReason o m ∨ KindReason o m → EmbedReason o m' ∨ KindReason o m')

theorem embedFull_iff {o : Opts} {m : Module} (hw : m.hasWeight = true) : embedFull o m = true ↔ EmbedReason o m := by
  simp [embedFull, EmbedReason, hw, and_assoc]

theorem should_iff {o : Opts} {n : Str} : shouldExtract o n = true ↔ o.included n = true ∧ o.excluded n = false := by simp [shouldExtract]

theorem lastPart_dot (n : Str) : '.' ∉ lastPart n := by
  unfold lastPart
  rw [List.mem_reverse]
  intro h
  have := List.mem_takeWhile_imp h
  simp at this

theorem lastPart_self {n : Str} (h : '.' ∉ n) : lastPart n = n := by
  unfold lastPart
  have : n.reverse.takeWhile (· ≠ '.') = n.reverse := by
    rw [List.takeWhile_eq_self_iff]
    intro c hc
    simp only [ne_eq, decide_not, Bool.not_eq_true', decide_eq_false_iff_not]
    rintro rfl
    exact h (List.mem_reverse.mp hc)
  rw [this, List.reverse_reverse]

/-! ## Without `--save-module` -/

/-- What is right for a module when none are listed. -/
def Right (o : Opts) (m : Module) (a : Action) : Prop :=
  ((EmbedReason o m ∨ KindReason o m) ∧ a = .full) ∨
    (¬ (EmbedReason o m ∨ KindReason o m) ∧ Decomposed o m ∧ a = .lora) ∨
    (¬ (EmbedReason o m ∨ KindReason o m) ∧ ¬ Decomposed o m ∧ a = .nothing)

/-- The keys saved after some modules. -/
def Keys (o : Opts) (save : List Str) (done : List Module) : Prop :=
  ∀ k, k ∈ save ↔ ∃ m ∈ done, (EmbedReason o m ∨ KindReason o m) ∧ k = lastPart m.name

theorem addKey_ok (save : List Str) (key : Str) : ∃ save', addKey false save key = .ok save' ∧ ∀ k, k ∈ save' ↔ k ∈ save ∨ k = key := by
  unfold addKey
  split
  · rename_i h
    exact ⟨save, rfl, fun k => ⟨Or.inl, fun hk => hk.elim id (fun e => e ▸ h)⟩⟩
  · exact ⟨save ++ [key], rfl, fun k => by simp⟩

theorem keys_add {o : Opts} {save save' : List Str} {done : List Module} {m : Module} (hk : Keys o save done)
    (hr : EmbedReason o m ∨ KindReason o m) (hs : ∀ k, k ∈ save' ↔ k ∈ save ∨ k = lastPart m.name) : Keys o save' (done ++ [m]) := by
  intro k
  rw [hs, hk]
  constructor
  · rintro (⟨m', hm', h⟩ | h)
    · exact ⟨m', List.mem_append_left _ hm', h⟩
    · exact ⟨m, by simp, hr, h⟩
  · rintro ⟨m', hm', hr', h⟩
    rcases List.mem_append.mp hm' with hm' | hm'
    · exact Or.inl ⟨m', hm', hr', h⟩
    · rw [List.mem_singleton.mp hm'] at h; exact Or.inr h

theorem keys_skip {o : Opts} {save : List Str} {done : List Module} {m : Module} (hk : Keys o save done)
    (hr : EmbedReason o m ∨ KindReason o m → lastPart m.name ∈ save) : Keys o save (done ++ [m]) := by
  intro k
  rw [hk]
  constructor
  · rintro ⟨m', hm', h⟩
    exact ⟨m', List.mem_append_left _ hm', h⟩
  · rintro ⟨m', hm', hr', h⟩
    rcases List.mem_append.mp hm' with hm' | hm'
    · exact ⟨m', hm', hr', h⟩
    · rw [List.mem_singleton.mp hm'] at h hr'
      obtain ⟨m'', hm'', h1, h2⟩ := (hk _).mp (hr hr')
      exact ⟨m'', hm'', h1, h.trans h2⟩

theorem planModule_right {o : Opts} {ms done rest : List Module} {m : Module} {save : List Str} (hms : ms = done ++ m :: rest) (hu : Uniform o ms)
    (hk : Keys o save done) : ∃ save' a, planModule o false save m = .ok (save', a) ∧ Right o m a ∧ Keys o save' (done ++ [m]) := by
  have hmem : m ∈ ms := by rw [hms]; simp
  have hdone : ∀ m' ∈ done, m' ∈ ms := by intro m' h; rw [hms]; exact List.mem_append_left _ h
  have weight_of : ∀ {x : Module}, EmbedReason o x ∨ KindReason o x → x.hasWeight = true := by
    rintro x (h | h)
    · exact h.1
    · exact h.1
  unfold planModule
  cases hw : m.hasWeight with
  | false =>
    have hno : ¬ (EmbedReason o m ∨ KindReason o m) := fun h => by have := weight_of h; rw [hw] at this; cases this
    refine ⟨save, .nothing, by simp, Or.inr (Or.inr ⟨hno, ?_, rfl⟩), keys_skip hk (fun h => absurd h hno)⟩
    intro hd
    have := hd.1
    rw [hw] at this; cases this
  | true =>
    simp only [if_true]
    split
    · rename_i he
      have hr : EmbedReason o m ∨ KindReason o m := Or.inl ((embedFull_iff hw).mp he)
      obtain ⟨save', hs, hmem'⟩ := addKey_ok save (lastPart m.name)
      rw [hs]
      refine ⟨save', .full, ?_, Or.inl ⟨hr, rfl⟩, keys_add hk hr hmem'⟩
      simp only
      rw [decide_, if_pos (Or.inr ((hmem' _).mpr (Or.inr rfl)))]
    · rename_i he
      have hne : ¬ EmbedReason o m := fun h => he ((embedFull_iff hw).mpr h)
      unfold decide_
      split
      · rename_i hin
        -- named by an earlier module
        have hkey : lastPart m.name ∈ save := by
          rcases hin with hin | hin
          · obtain ⟨m', _, _, h⟩ := (hk _).mp hin
            have hd : '.' ∉ m.name := by rw [h]; exact lastPart_dot _
            rw [lastPart_self hd]; exact hin
          · exact hin
        obtain ⟨m', hm', hr', h⟩ := (hk _).mp hkey
        have hr := hu m' (hdone m' hm') m hmem (weight_of hr') hw h.symm hr'
        exact ⟨save, .full, rfl, Or.inl ⟨hr, rfl⟩, keys_skip hk (fun _ => hkey)⟩
      · rename_i hin
        split
        · rename_i hsh
          rw [should_iff] at hsh
          split
          · rename_i hko
            have hno : ¬ (EmbedReason o m ∨ KindReason o m) := fun h => h.elim hne (fun h => hko h.2.1)
            exact ⟨save, .lora, rfl, Or.inr (Or.inl ⟨hno, ⟨hw, hko, hsh⟩, rfl⟩), keys_skip hk (fun h => absurd h hno)⟩
          · rename_i hko
            rw [not_not] at hko
            split
            · rename_i hsk
              have hno : ¬ (EmbedReason o m ∨ KindReason o m) := fun h => h.elim hne (fun h => by have := h.2.2.2.2; rw [hsk] at this; cases this)
              exact ⟨save, .nothing, rfl, Or.inr (Or.inr ⟨hno, fun h => h.2.1 hko, rfl⟩), keys_skip hk (fun h => absurd h hno)⟩
            · rename_i hsk
              have hr : EmbedReason o m ∨ KindReason o m := Or.inr ⟨hw, hko, hsh.1, hsh.2, by simpa using hsk⟩
              obtain ⟨save', hs, hmem'⟩ := addKey_ok save (lastPart m.name)
              rw [hs]
              exact ⟨save', .full, rfl, Or.inl ⟨hr, rfl⟩, keys_add hk hr hmem'⟩
        · rename_i hsh
          rw [should_iff] at hsh
          have hno : ¬ (EmbedReason o m ∨ KindReason o m) := fun h => h.elim hne (fun h => hsh ⟨h.2.2.1, h.2.2.2.1⟩)
          exact ⟨save, .nothing, rfl, Or.inr (Or.inr ⟨hno, fun h => hsh h.2.2, rfl⟩), keys_skip hk (fun h => absurd h hno)⟩

theorem planFrom_right {o : Opts} {ms : List Module} (hu : Uniform o ms) (rest : List Module) {done : List Module} {save : List Str}
    (hms : ms = done ++ rest) (hk : Keys o save done) :
    ∃ out acts, planFrom o false save rest = .ok (out, acts) ∧ acts.map Prod.fst = rest ∧ (∀ e ∈ acts, Right o e.1 e.2) ∧ Keys o out ms := by
  induction rest generalizing done save with
  | nil => exact ⟨save, [], rfl, rfl, by simp, by rw [hms, List.append_nil]; exact hk⟩
  | cons m rest ih =>
    obtain ⟨save', a, h1, h2, h3⟩ := planModule_right hms hu hk
    obtain ⟨out, acts, h4, h5, h6, h7⟩ := ih (done := done ++ [m]) (save := save') (by rw [hms]; simp) h3
    refine ⟨out, (m, a) :: acts, ?_, by simp [h5], ?_, h7⟩
    · rw [planFrom, h1]; simp only; rw [h4]; rfl
    · intro e he
      rcases List.mem_cons.mp he with rfl | he
      · exact h2
      · exact h6 e he

/-- C79: without listed modules, planning succeeds and goes through all modules: embeddings (unless adapters for them are on, or they are excluded) and
selected modules that cannot be decomposed (unless they are to be skipped) are saved at full rank, other selected modules are decomposed, and the rest
is left out; the adapter's configuration names exactly the endings of the modules saved at full rank.  All this if modules whose names end alike are
alike. -/
theorem C79_unlisted_partial {o : Opts} {ms : List Module} (hu : Uniform o ms) :
    ∃ save acts, plan o [] ms = .ok (save, acts) ∧ acts.map Prod.fst = ms ∧ (∀ e ∈ acts, Right o e.1 e.2) ∧
      ∀ k, k ∈ save ↔ ∃ m ∈ ms, (EmbedReason o m ∨ KindReason o m) ∧ k = lastPart m.name :=
  planFrom_right hu ms (done := []) (save := []) rfl (by intro k; simp)

/-! ## With `--save-module` -/

/-- The module is listed, by its name or its ending. -/
def Listed (given : List Str) (m : Module) : Prop := m.name ∈ given ∨ lastPart m.name ∈ given

/-- What is right for a module when some are listed. -/
def RightListed (o : Opts) (given : List Str) (m : Module) (a : Action) : Prop :=
  (m.hasWeight = true ∧ Listed given m ∧ a = .full) ∨ (¬ Listed given m ∧ Decomposed o m ∧ a = .lora) ∨
    (¬ (m.hasWeight = true ∧ Listed given m) ∧ ¬ Decomposed o m ∧ a = .nothing)

/-- Listed modules suffice: all that must be saved at full rank are among them, embeddings by their endings. -/
def Enough (o : Opts) (given : List Str) (m : Module) : Prop :=
  (EmbedReason o m → lastPart m.name ∈ given) ∧ (KindReason o m → Listed given m)

theorem planModule_listed {o : Opts} {given : List Str} (m : Module) :
    (Enough o given m ∧ ∃ a, planModule o true given m = .ok (given, a) ∧ RightListed o given m a) ∨
      (¬ Enough o given m ∧ planModule o true given m = .error .attribute) := by
  unfold planModule
  cases hw : m.hasWeight with
  | false =>
    left
    refine ⟨⟨fun h => ?_, fun h => ?_⟩, .nothing, by simp, Or.inr (Or.inr ⟨fun h => (by rw [hw] at h; cases h.1), fun h => ?_, rfl⟩)⟩
    all_goals
      have := h.1
      rw [hw] at this; cases this
  | true =>
    simp only [if_true]
    have hdec : (EmbedReason o m → lastPart m.name ∈ given) →
        (Enough o given m ∧ ∃ a, decide_ o true given m = .ok (given, a) ∧ RightListed o given m a) ∨
          (¬ Enough o given m ∧ decide_ o true given m = .error .attribute) := by
      intro hemb
      unfold decide_
      split
      · rename_i hl
        exact Or.inl ⟨⟨hemb, fun _ => hl⟩, .full, rfl, Or.inl ⟨hw, hl, rfl⟩⟩
      · rename_i hl
        split
        · rename_i hsh
          rw [should_iff] at hsh
          split
          · rename_i hko
            exact Or.inl ⟨⟨hemb, fun h => absurd h.2.1 hko⟩, .lora, rfl, Or.inr (Or.inl ⟨hl, ⟨hw, hko, hsh⟩, rfl⟩)⟩
          · rename_i hko
            rw [not_not] at hko
            split
            · rename_i hsk
              refine Or.inl ⟨⟨hemb, fun h => ?_⟩, .nothing, rfl, Or.inr (Or.inr ⟨fun h => hl h.2, fun h => h.2.1 hko, rfl⟩)⟩
              have := h.2.2.2.2
              rw [hsk] at this; cases this
            · rename_i hsk
              refine Or.inr ⟨fun h => hl (h.2 ⟨hw, hko, hsh.1, hsh.2, by simpa using hsk⟩), ?_⟩
              rw [addKey, if_neg (fun h => hl (Or.inr h)), if_pos rfl]; rfl
        · rename_i hsh
          rw [should_iff] at hsh
          exact Or.inl ⟨⟨hemb, fun h => absurd ⟨h.2.2.1, h.2.2.2.1⟩ hsh⟩, .nothing, rfl,
            Or.inr (Or.inr ⟨fun h => hl h.2, fun h => hsh h.2.2, rfl⟩)⟩
    split
    · rename_i he
      have hr := (embedFull_iff hw).mp he
      by_cases hkey : lastPart m.name ∈ given
      · rw [addKey, if_pos hkey]
        exact hdec (fun _ => hkey)
      · rw [addKey, if_neg hkey, if_pos rfl]
        exact Or.inr ⟨fun h => hkey (h.1 hr), rfl⟩
    · rename_i he
      exact hdec (fun h => absurd ((embedFull_iff hw).mpr h) he)

theorem planFrom_listed {o : Opts} {given : List Str} (ms : List Module) :
    ((∀ m ∈ ms, Enough o given m) ∧ ∃ acts, planFrom o true given ms = .ok (given, acts) ∧ acts.map Prod.fst = ms ∧ ∀ e ∈ acts, RightListed o given e.1 e.2) ∨
      (¬ (∀ m ∈ ms, Enough o given m) ∧ planFrom o true given ms = .error .attribute) := by
  induction ms with
  | nil => exact Or.inl ⟨by simp, [], rfl, rfl, by simp⟩
  | cons m ms ih =>
    rcases planModule_listed (o := o) (given := given) m with ⟨he, a, h1, h2⟩ | ⟨he, h1⟩
    · rw [planFrom, h1]
      simp only
      rcases ih with ⟨hall, acts, h3, h4, h5⟩ | ⟨hall, h3⟩
      · refine Or.inl ⟨?_, (m, a) :: acts, by rw [h3]; rfl, by simp [h4], ?_⟩
        · intro x hx
          rcases List.mem_cons.mp hx with rfl | hx
          · exact he
          · exact hall x hx
        · intro e hm
          rcases List.mem_cons.mp hm with rfl | hm
          · exact h2
          · exact h5 e hm
      · exact Or.inr ⟨fun h => hall (fun x hx => h x (List.mem_cons_of_mem _ hx)), by rw [h3]; rfl⟩
    · rw [planFrom, h1]
      exact Or.inr ⟨fun h => he (h m (by simp)), rfl⟩

/-- C79: with listed modules, those are saved at full rank (and named as given), other selected ones that can be decomposed are decomposed and the rest
is left out, provided that the list has all modules that must be saved at full rank. -/
theorem C79_listed_partial {o : Opts} {given : List Str} {ms : List Module} (hg : given ≠ []) (he : ∀ m ∈ ms, Enough o given m) :
    ∃ acts, plan o given ms = .ok (given, acts) ∧ acts.map Prod.fst = ms ∧ ∀ e ∈ acts, RightListed o given e.1 e.2 := by
  have hf : (!given.isEmpty) = true := by cases given with
    | nil => exact absurd rfl hg
    | cons _ _ => rfl
  rw [plan, hf]
  rcases planFrom_listed (o := o) (given := given) ms with ⟨_, h⟩ | ⟨h, _⟩
  · exact h
  · exact absurd he h

/-- C79, refuted: if a module is listed, but not all that must be saved at full rank (all embeddings and norms, by default), the run fails. -/
theorem C79_listed_fails {o : Opts} {given : List Str} {ms : List Module} (hg : given ≠ []) {m : Module} (hm : m ∈ ms) (he : ¬ Enough o given m) :
    plan o given ms = .error .attribute := by
  have hf : (!given.isEmpty) = true := by cases given with
    | nil => exact absurd rfl hg
    | cons _ _ => rfl
  rw [plan, hf]
  rcases planFrom_listed (o := o) (given := given) ms with ⟨h, _⟩ | ⟨_, h⟩
  · exact absurd (h m hm) he
  · exact h

/-- Default options. -/
def defaults : Opts := { embedLora := false, skipUndecomposable := false, included := fun _ => true, excluded := fun _ => false }

/-- A small model. -/
def small : List Module :=
  [⟨cs!"", .other, false, false⟩, ⟨cs!"model.embed", .embedding, true, true⟩, ⟨cs!"model.0.q", .linear, true, false⟩,
   ⟨cs!"model.0.norm", .other, true, false⟩, ⟨cs!"model.1.q", .linear, true, false⟩, ⟨cs!"model.1.norm", .other, true, false⟩,
   ⟨cs!"head", .linear, true, true⟩]

example : plan defaults [] small = .ok ([cs!"embed", cs!"norm", cs!"head"], small.zip [.nothing, .full, .lora, .full, .lora, .full, .full]) := by
  decide +kernel

instance (o : Opts) (m : Module) : Decidable (EmbedReason o m) := by unfold EmbedReason; infer_instance
instance (o : Opts) (m : Module) : Decidable (KindReason o m) := by unfold KindReason; infer_instance
instance (g : List Str) (m : Module) : Decidable (Listed g m) := by unfold Listed; infer_instance
instance (o : Opts) (g : List Str) (m : Module) : Decidable (Enough o g m) := by unfold Enough; infer_instance

example : Uniform defaults small := by unfold Uniform; decide +kernel

/-- Saving one more module at full rank cannot be asked for without listing all others. -/
example : plan defaults [cs!"q"] small = .error .attribute := by decide +kernel

example : ¬ Enough defaults [cs!"q"] ⟨cs!"model.0.norm", .other, true, false⟩ := by decide +kernel

example : ∀ m ∈ small, Enough defaults [cs!"embed", cs!"norm", cs!"head", cs!"model.1.q"] m := by decide +kernel

/-- C79, refuted for modules whose names end alike but are not: the first is decomposed, although the configuration says that it is saved at full
rank. -/
theorem C79_not_uniform :
    plan defaults [] [⟨cs!"a.gate", .linear, true, false⟩, ⟨cs!"b.gate", .other, true, false⟩] =
      .ok ([cs!"gate"], [(⟨cs!"a.gate", .linear, true, false⟩, .lora), (⟨cs!"b.gate", .other, true, false⟩, .full)]) := by decide +kernel

end Verif.Lora
