import Verif.Model.Shipped
import Verif.Props.ArchNames
import Verif.Props.WholeLinear
import Verif.Props.WholeMethod

/-! # C119: merging models of the architectures shipped -/

namespace Verif.Shipped

open Verif.ModelRef (Ref Str)
open Verif.Config Verif.Plan Verif.WholeMerge
open Verif.Arch (Module substitute substituteAll prefixWeight prefixOpt expandOpt fine tokNames Tok text Good checkModule checkCross checkArch
  moduleToks distinctArchs apart litSure pairs)
open Verif.LoadTask (WeightInfo)

/-! ## Expanding templates -/

/-- What the planner needs of an expanded weight, in terms of the template. -/
def Keeps (w : Arch.WeightInfo) (c : WeightInfo) : Prop := c.optional = w.optional ∧ (w.aliases.getD [] = [] → c.aliases = []) ∧
  (w.aliases.getD [] ≠ [] → c.aliases ≠ [])

theorem expandList_nil {n : Int} {layer : Option Int} {l r : List Str} (h : Arch.expandList n layer l = .ok r) : r = [] ↔ l = [] := by
  cases l with
  | nil => simp only [Arch.expandList, Except.ok.injEq] at h; subst h; simp
  | cons a l =>
    simp only [Arch.expandList] at h
    split at h
    · cases h
    · split at h
      · cases h
      · cases h; simp

theorem substitute_keeps {w v : Arch.WeightInfo} {n : Int} {layer : Option Int} (h : substitute w n layer = .ok v) (p : Option Str) :
    Keeps w (toPlan (prefixWeight v p)) := by
  unfold substitute at h
  split at h
  · cases h
  split at h
  · cases h
  rename_i a ha
  split at h
  · cases h
  cases h
  have hal : a.getD [] = [] ↔ w.aliases.getD [] = [] := by
    cases hw : w.aliases with
    | none => rw [hw] at ha; simp only [expandOpt, Except.ok.injEq] at ha; subst ha; simp
    | some l =>
      rw [hw] at ha
      simp only [expandOpt] at ha
      cases hl : Arch.expandList n layer l with
      | error e => rw [hl] at ha; simp [Except.map] at ha
      | ok r =>
        rw [hl] at ha
        simp only [Except.map, Except.ok.injEq] at ha
        subst ha
        simpa using expandList_nil hl
  have hpre : ∀ q : Str, (prefixOpt q a).getD [] = [] ↔ a.getD [] = [] := by
    intro q
    unfold prefixOpt
    cases h : a.getD [] with
    | nil => simp
    | cons x xs => simp
  cases p with
  | none => exact ⟨rfl, by simp only [toPlan, prefixWeight, List.map_eq_nil_iff]; exact hal.2, by
      simp only [toPlan, prefixWeight, ne_eq, List.map_eq_nil_iff]; exact fun h h' => h (hal.1 h')⟩
  | some q => exact ⟨rfl, by simp only [toPlan, prefixWeight, List.map_eq_nil_iff]; exact fun h => (hpre q).2 (hal.2 h), by
      simp only [toPlan, prefixWeight, ne_eq, List.map_eq_nil_iff]; exact fun h h' => h (hal.1 ((hpre q).1 h'))⟩

theorem substituteAll_keeps {ws vs : List Arch.WeightInfo} {n : Int} {layer : Option Int} (h : substituteAll n layer ws = .ok vs) (p : Option Str) :
    List.Forall₂ Keeps ws (vs.map (fun v => toPlan (prefixWeight v p))) := by
  induction ws generalizing vs with
  | nil => simp only [substituteAll, Except.ok.injEq] at h; subst h; exact .nil
  | cons w ws ih =>
    simp only [substituteAll] at h
    split at h
    · cases h
    · rename_i a ha
      split at h
      · cases h
      · rename_i b hb
        cases h
        exact .cons (substitute_keeps ha p) (ih hb)

/-- A list of templates that are understood expands; the names are their texts. -/
theorem expands {layered : Bool} {m : Module} {ws : List Arch.WeightInfo} (h : ws.all (fine layered) = true) {l : List (List Tok)}
    (ht : tokNames layered m.weightPrefix ws = some l) (n i : Nat) (layer : Option Int) (hl : layer = some (i : Int) ∨ layered = false) :
    (∃ vs, substituteAll n layer ws = .ok vs) ∧ (configured m n layer ws).map (·.name) = l.map (text n i) ∧
      List.Forall₂ Keeps ws (configured m n layer ws) := by
  obtain ⟨vs, hvs, hn⟩ := Arch.substituteAll_fine h m.weightPrefix ht n i layer hl
  unfold configured
  rw [hvs]
  refine ⟨⟨vs, rfl⟩, ?_, substituteAll_keeps hvs _⟩
  rw [← hn, List.map_map]
  rfl

/-! ## What a definition must be like -/

/-- The names that are not about distinctness: no ":" in a name, no other names for optional weights, a required weight before or after the layers. -/
def checkPlan (m : Module) : Bool :=
  (match moduleToks m with
    | some ts => ts.all (fun t => !t.contains (.chr ':'))
    | none => false) &&
  (m.pre ++ m.layers ++ m.post).all (fun w => !w.optional || (w.aliases.getD []).isEmpty) &&
  (m.pre ++ m.post).any (fun w => !w.optional)

/-- All parts of a module that passes the checks, expanded. -/
structure Sound (m : Module) (ts : List (List Tok)) : Prop where
  toks : ∃ o o' l, ts = o ++ o' ++ l ∧ (∀ n : Nat, (configured m n none m.pre).map (·.name) = o.map (text n 0)) ∧
    (∀ n : Nat, (configured m n none m.post).map (·.name) = o'.map (text n 0)) ∧
    (∀ n i : Nat, (configured m n (some (i : Int)) m.layers).map (·.name) = l.map (text n i))
  pre : ∀ n : Nat, List.Forall₂ Keeps m.pre (configured m n none m.pre)
  post : ∀ n : Nat, List.Forall₂ Keeps m.post (configured m n none m.post)
  layers : ∀ n i : Nat, List.Forall₂ Keeps m.layers (configured m n (some (i : Int)) m.layers)
  good : ∀ t ∈ ts, Good t

theorem sound_of_check {m : Module} (h : checkModule m = true) : ∃ ts, moduleToks m = some ts ∧ Sound m ts := by
  have h0 := h
  unfold checkModule at h
  simp only [Bool.and_eq_true] at h
  obtain ⟨⟨h1, h2⟩, h3⟩ := h
  split at h3
  · rename_i oo l ho hlay
    obtain ⟨o, o', hpre, hpost, rfl⟩ := Arch.tokNames_append ho
    rw [List.all_append, Bool.and_eq_true] at h1
    refine ⟨o ++ o' ++ l, by unfold moduleToks; rw [ho, hlay], ⟨o, o', l, rfl, ?_, ?_, ?_⟩, ?_, ?_, ?_, ?_⟩
    · exact fun n => (expands h1.1 hpre n 0 none (Or.inr rfl)).2.1
    · exact fun n => (expands h1.2 hpost n 0 none (Or.inr rfl)).2.1
    · exact fun n i => (expands h2 hlay n i (some (i : Int)) (Or.inl rfl)).2.1
    · exact fun n => (expands h1.1 hpre n 0 none (Or.inr rfl)).2.2
    · exact fun n => (expands h1.2 hpost n 0 none (Or.inr rfl)).2.2
    · exact fun n i => (expands h2 hlay n i (some (i : Int)) (Or.inl rfl)).2.2
    · intro t ht
      rcases List.mem_append.1 ht with ht | ht
      · exact (Arch.tokNames_good ho t ht).1
      · exact (Arch.tokNames_good hlay t ht).1
  · cases h3

theorem text_no_colon {t : List Tok} (hg : Good t) (h : Tok.chr ':' ∉ t) (n i : Nat) : ':' ∉ text n i t := by
  induction t with
  | nil => simp [text]
  | cons a t ih =>
    have hn : ':' ∉ a.val n i ∧ Good t := by
      cases ha : a.isNum with
      | true =>
        obtain ⟨_, hd, _, hg'⟩ := Arch.val_num n i ha hg
        exact ⟨fun hc => absurd (hd _ hc) (by decide), hg'⟩
      | false =>
        cases a with
        | chr c =>
          refine ⟨?_, hg.2⟩
          simp only [Tok.val, List.mem_singleton]
          rintro rfl
          exact h (by simp)
        | num d => simp [Tok.isNum] at ha
        | layer => simp [Tok.isNum] at ha
        | total => simp [Tok.isNum] at ha
    have := ih hn.2 (fun hc => h (by simp [hc]))
    simp only [text, List.map_cons, List.flatten_cons, List.mem_append, not_or]
    exact ⟨hn.1, this⟩

/-- All weights of a module with `total` layers, as the planner gets them for the output. -/
def outWeights (m : Module) (n total : Nat) : List WeightInfo :=
  configured m n none m.pre ++ (List.range total).flatMap (fun i : Nat => configured m n (some (i : Int)) m.layers) ++ configured m n none m.post

theorem outWeights_nodup {m : Module} (h : checkModule m = true) (n total : Nat) (ht : total ≤ m.numLayers n) :
    ((outWeights m (m.numLayers n) total).map (·.name)).Nodup := by
  obtain ⟨ts, hts, ⟨⟨o, o', l, rfl, h1, h2, h3⟩, _, _, _, _⟩⟩ := sound_of_check h
  obtain ⟨ws, o1, o1', l1, hws, ho, ho', hl, hnames, -⟩ := Arch.module_names h n
  obtain ⟨ws', hws', hnd⟩ := Arch.module_nodup h n
  rw [hws] at hws'
  cases hws'
  rw [hnames] at hnd
  have e1 := h1 (m.numLayers n)
  have e2 := h2 (m.numLayers n)
  have e3 := h3 (m.numLayers n)
  unfold checkModule at h
  simp only [Bool.and_eq_true] at h
  have hf := h.1.1
  rw [List.all_append, Bool.and_eq_true] at hf
  have f1 := (expands hf.1 ho (m.numLayers n) 0 none (Or.inr rfl)).2.1
  have f2 := (expands hf.2 ho' (m.numLayers n) 0 none (Or.inr rfl)).2.1
  have f3 := fun i => (expands h.1.2 hl (m.numLayers n) i (some (i : Int)) (Or.inl rfl)).2.1
  rw [← f1, ← f2] at hnd
  unfold outWeights
  rw [List.map_append, List.map_append, List.map_flatMap]
  have hsub : ((List.range total).flatMap (fun i : Nat => (configured m (m.numLayers n) (some (i : Int)) m.layers).map (·.name))).Sublist
      ((List.range (m.numLayers n)).flatMap (fun i => l1.map (text (m.numLayers n) i))) := by
    have : (fun i : Nat => (configured m (m.numLayers n) (some (i : Int)) m.layers).map (·.name)) =
        fun i => l1.map (text (m.numLayers n) i) := funext f3
    rw [this]
    exact (List.range_sublist.2 ht).flatMap _
  exact hnd.sublist ((hsub.append_left _).append_right _)

/-- Every name is the text of a template. -/
theorem outWeights_text {m : Module} {ts : List (List Tok)} (h : Sound m ts) {n total : Nat} {w : WeightInfo} (hw : w ∈ outWeights m n total) :
    ∃ i, ∃ t ∈ ts, w.name = text n i t := by
  obtain ⟨o, o', l, rfl, h1, h2, h3⟩ := h.toks
  have key : ∀ {cs : List WeightInfo} {us : List (List Tok)} {i : Nat}, cs.map (·.name) = us.map (text n i) → w ∈ cs →
      ∃ t ∈ us, w.name = text n i t := by
    intro cs us i he hc
    have : w.name ∈ us.map (text n i) := by rw [← he]; exact List.mem_map.2 ⟨w, hc, rfl⟩
    obtain ⟨t, ht, e⟩ := List.mem_map.1 this
    exact ⟨t, ht, e.symm⟩
  unfold outWeights at hw
  simp only [List.mem_append, List.mem_flatMap] at hw
  rcases hw with (hw | ⟨i, _, hw⟩) | hw
  · obtain ⟨t, ht, e⟩ := key (h1 n) hw; exact ⟨0, t, by simp [ht], e⟩
  · obtain ⟨t, ht, e⟩ := key (h3 n i) hw; exact ⟨i, t, by simp [ht], e⟩
  · obtain ⟨t, ht, e⟩ := key (h2 n) hw; exact ⟨0, t, by simp [ht], e⟩

theorem cross_disjoint {m m' : Module} (h : checkModule m = true) (h' : checkModule m' = true) (hc : checkCross m m' = true) (n k n' k' : Nat)
    {w w' : WeightInfo} (hw : w ∈ outWeights m n k) (hw' : w' ∈ outWeights m' n' k') : w.name ≠ w'.name := by
  obtain ⟨ts, hts, hs⟩ := sound_of_check h
  obtain ⟨us, hus, hs'⟩ := sound_of_check h'
  obtain ⟨i, t, ht, e⟩ := outWeights_text hs hw
  obtain ⟨j, u, hu, e'⟩ := outWeights_text hs' hw'
  unfold checkCross at hc
  rw [hts, hus] at hc
  rw [e, e']
  exact Arch.apart_sound (fun t u => Arch.litSure_ok t u) (hs.good t ht) (hs'.good u hu) (List.all_eq_true.1 (List.all_eq_true.1 hc t ht) u hu)

section
variable {K : Type} [Field K] [LinearOrder K] [IsStrictOrderedRing K] [FloorRing K]

/-! ## Configurations that fit an architecture -/

/-- What is asked of a configuration whose modules, as slices, are `l`, and of the models - nothing about the architecture: every module is named
once, has slices of equally many layers, with layer numbers that are not negative and no model twice in a slice, the last slice of a module has no more sources than the first, and the
output's configuration has (at least) as many layers as the slices together (C27: it does).  Names of models have no separators in them. -/
structure Fits (f : Family K) (l : List (String × OutModule K)) : Prop where
  some_module : l ≠ []
  known : ∀ e ∈ l, e.1 ∈ f.modules.map Prod.fst
  distinct : (l.map Prod.fst).Nodup
  given : ∀ e ∈ l, ∃ s ss, e.2.slices = some (s :: ss)
  even : ∀ e ∈ l, ∀ s ∈ e.2.slices.getD [], s.sources ≠ [] ∧ ∀ a ∈ s.sources, ∀ b ∈ s.sources, a.stop - a.start = b.stop - b.start
  once : ∀ e ∈ l, ∀ s ∈ e.2.slices.getD [], (s.sources.map (·.model)).Nodup
  plain : ∀ e ∈ l, ∀ s ∈ e.2.slices.getD [], ∀ src ∈ s.sources, src.model.Plain
  ends : ∀ e ∈ l, ∀ a b, (e.2.slices.getD []).head? = some a → (e.2.slices.getD []).getLast? = some b → b.sources.length ≤ a.sources.length
  start : ∀ e ∈ l, ∀ s ∈ e.2.slices.getD [], ∀ src ∈ s.sources, 0 ≤ src.start
  depth : ∀ e ∈ l, ∀ m, (e.1, m) ∈ f.modules → ((e.2.slices.getD []).map OutSlice.len).sum ≤ m.numLayers (f.outLayers e.1)

/-- A module is found under its name. -/
theorem module_eq {f : Family K} (hn : (f.modules.map Prod.fst).Nodup) {n : String} {m : Module} (h : (n, m) ∈ f.modules) : f.module n = some m := by
  unfold Family.module
  generalize f.modules = ms at *
  induction ms with
  | nil => cases h
  | cons e ms ih =>
    obtain ⟨n', m'⟩ := e
    simp only [List.map_cons, List.nodup_cons] at hn
    rcases List.mem_cons.1 h with h | h
    · cases h; simp
    · have : n' ≠ n := by
        rintro rfl
        exact hn.1 (List.mem_map.2 ⟨_, h, rfl⟩)
      simp only [List.find?_cons, beq_eq_false_iff_ne.2 this]
      exact ih hn.2 h

theorem known_module {f : Family K} {n : String} (h : n ∈ f.modules.map Prod.fst) : ∃ m, (n, m) ∈ f.modules := by
  obtain ⟨e, he, rfl⟩ := List.mem_map.1 h
  exact ⟨e.2, he⟩

theorem env_weights {f : Family K} {n : String} {m : Module} (h : f.module n = some m) (slices : List (OutSlice K)) :
    moduleWeights f.env n slices = outWeights m (m.numLayers (f.outLayers n)) (slices.map OutSlice.len).sum := by
  unfold moduleWeights outWeights
  simp only [Family.env, h]

theorem place_mem {env : Env K} {n : String} {slices : List (OutSlice K)} {w : WeightInfo} {s : OutSlice K} {t : K} {ins : List (Ref × WeightInfo)}
    (h : Place env n slices w s t ins) : w ∈ moduleWeights env n slices := by
  unfold moduleWeights
  cases h with
  | pre s w hs hw => simp [hw]
  | post s w hs hw => simp [hw]
  | layer j s o k w ins hl hw hins =>
    simp only [List.mem_append, List.mem_flatMap, List.mem_range]
    refine Or.inl (Or.inr ⟨j, ?_, List.mem_of_getElem? hw⟩)
    obtain ⟨b, a, rfl, ho, rfl⟩ := hl
    simp only [List.map_append, List.map_cons, List.sum_append, List.sum_cons]
    omega

theorem forall₂_get {A B : Type} {R : A → B → Prop} {l : List A} {r : List B} (h : List.Forall₂ R l r) {k : Nat} {b : B} (hb : r[k]? = some b) :
    ∃ a, l[k]? = some a ∧ R a b := by
  induction h generalizing k with
  | nil => simp at hb
  | cons x _ ih =>
    cases k with
    | zero => simp only [List.getElem?_cons_zero, Option.some.injEq] at hb; subst hb; exact ⟨_, rfl, x⟩
    | succ k => simp only [List.getElem?_cons_succ] at hb ⊢; exact ih hb

theorem forall₂_get' {A B : Type} {R : A → B → Prop} {l : List A} {r : List B} (h : List.Forall₂ R l r) {k : Nat} {a : A} (ha : l[k]? = some a) :
    ∃ b, r[k]? = some b ∧ R a b := by
  induction h generalizing k with
  | nil => simp at ha
  | cons x _ ih =>
    cases k with
    | zero => simp only [List.getElem?_cons_zero, Option.some.injEq] at ha; subst ha; exact ⟨_, rfl, x⟩
    | succ k => simp only [List.getElem?_cons_succ] at ha ⊢; exact ih ha

theorem forall₂_mem {A B : Type} {R : A → B → Prop} {l : List A} {r : List B} (h : List.Forall₂ R l r) {b : B} (hb : b ∈ r) : ∃ a ∈ l, R a b := by
  obtain ⟨k, hk⟩ := List.mem_iff_getElem?.1 hb
  obtain ⟨a, ha, hr⟩ := forall₂_get h hk
  exact ⟨a, List.mem_of_getElem? ha, hr⟩

/-- For the layer weights: inputs and outputs come from one template. -/
theorem layer_templates {f : Family K} {n : String} {m : Module} {ts : List (List Tok)} (hm : f.module n = some m) (hs : Sound m ts) {j k : Nat}
    {w : WeightInfo} (hw : (f.env.outLayer n j)[k]? = some w) (r : Ref) (i : Nat) :
    ∃ a wi, a ∈ m.layers ∧ Keeps a w ∧ (f.env.inLayer r n (i : Int))[k]? = some wi ∧ Keeps a wi ∧
      ∃ t ∈ ts, wi.name = text (m.numLayers (f.layers r n)) i t := by
  simp only [Family.env, hm] at hw ⊢
  obtain ⟨a, ha, hk⟩ := forall₂_get (hs.layers _ j) hw
  obtain ⟨wi, hwi, hk'⟩ := forall₂_get' (hs.layers (m.numLayers (f.layers r n)) i) ha
  refine ⟨a, wi, List.mem_of_getElem? ha, hk, hwi, hk', ?_⟩
  obtain ⟨o, o', l, rfl, _, _, h3⟩ := hs.toks
  have : wi.name ∈ l.map (text (m.numLayers (f.layers r n)) i) := by
    rw [← h3]; exact List.mem_map.2 ⟨wi, List.mem_of_getElem? hwi, rfl⟩
  obtain ⟨t, ht, e⟩ := List.mem_map.1 this
  exact ⟨t, by simp [ht], e.symm⟩

/-- Any architecture that passes the checks can be planned. -/
theorem checked_usable (f : Family K) (hn : (f.modules.map Prod.fst).Nodup) (hc : checkArch (f.modules.map Prod.snd) = true)
    (hp : (f.modules.map Prod.snd).all checkPlan = true) (l : List (String × OutModule K)) (hf : Fits f l) : Usable f.env l := by
  unfold checkArch at hc
  rw [Bool.and_eq_true] at hc
  obtain ⟨hc1, hc2⟩ := hc
  have hmod : ∀ n m, (n, m) ∈ f.modules → checkModule m = true ∧ checkPlan m = true := fun n m h =>
    ⟨List.all_eq_true.1 hc1 m (List.mem_map.2 ⟨_, h, rfl⟩), List.all_eq_true.1 hp m (List.mem_map.2 ⟨_, h, rfl⟩)⟩
  -- everything about one module
  have key : ∀ e ∈ l, ∃ m ts, (e.1, m) ∈ f.modules ∧ f.module e.1 = some m ∧ moduleToks m = some ts ∧ Sound m ts ∧ checkModule m = true ∧
      (∀ t ∈ ts, Tok.chr ':' ∉ t) ∧ (∀ a ∈ m.pre ++ m.layers ++ m.post, a.optional = true → a.aliases.getD [] = []) ∧
      ∃ a ∈ m.pre ++ m.post, a.optional = false := by
    intro e he
    obtain ⟨m, hm⟩ := known_module (hf.known e he)
    obtain ⟨h1, h2⟩ := hmod _ _ hm
    obtain ⟨ts, hts, hs⟩ := sound_of_check h1
    unfold checkPlan at h2
    rw [hts] at h2
    simp only [Bool.and_eq_true, List.all_eq_true, Bool.or_eq_true, Bool.not_eq_true', List.any_eq_true] at h2
    refine ⟨m, ts, hm, module_eq hn hm, hts, hs, h1, ?_, ?_, h2.2⟩
    · intro t ht hc
      have := h2.1.1 t ht
      rw [List.contains_eq_mem, decide_eq_false_iff_not] at this
      exact this hc
    · intro a ha ho
      rcases h2.1.2 a ha with h | h
      · rw [ho] at h; cases h
      · simpa using h
  have start : ∀ e ∈ l, ∀ s ∈ e.2.slices.getD [], ∀ src ∈ s.sources, ∀ o : Nat, ∃ i : Nat, src.start + o = (i : Int) := by
    intro e he s hs src hsrc o
    exact ⟨(src.start + o).toNat, by have := hf.start e he s hs src hsrc; omega⟩
  have inSlice : ∀ {slices : List (OutSlice K)} {j s o}, IsLayer slices j s o → s ∈ slices := by
    rintro slices j s o ⟨b, a, rfl, _, _⟩; simp
  have input : ∀ e ∈ l, ∀ w s t ins, Place f.env e.1 (e.2.slices.getD []) w s t ins → ∀ i ∈ ins,
      ∃ (m : Module) (ts : List (List Tok)), (∀ t ∈ ts, Tok.chr ':' ∉ t) ∧ (∀ t ∈ ts, Good t) ∧ (∃ n j, ∃ t ∈ ts, i.2.name = text n j t) ∧
        ∃ a ∈ m.pre ++ m.layers ++ m.post, (∀ a ∈ m.pre ++ m.layers ++ m.post, a.optional = true → a.aliases.getD [] = []) ∧ Keeps a w ∧ Keeps a i.2 := by
    intro e he w s t ins hpl i hi
    obtain ⟨m, ts, hm, hmm, hts, hs, hck, hco, hop, _⟩ := key e he
    refine ⟨m, ts, hco, hs.good, ?_⟩
    have edge : ∀ {w : WeightInfo}, w ∈ f.env.outPre e.1 ∨ w ∈ f.env.outPost e.1 →
        (∃ n j, ∃ t ∈ ts, w.name = text n j t) ∧ ∃ a ∈ m.pre ++ m.layers ++ m.post,
          (∀ a ∈ m.pre ++ m.layers ++ m.post, a.optional = true → a.aliases.getD [] = []) ∧ Keeps a w ∧ Keeps a w := by
      intro w hw
      have hmem : w ∈ outWeights m (m.numLayers (f.outLayers e.1)) 0 := by
        unfold outWeights
        simp only [Family.env, hmm] at hw
        rcases hw with hw | hw <;> simp [hw]
      refine ⟨⟨_, outWeights_text hs hmem⟩, ?_⟩
      simp only [Family.env, hmm] at hw
      rcases hw with hw | hw
      · obtain ⟨a, ha, hk⟩ := forall₂_mem (hs.pre _) hw
        exact ⟨a, by simp [ha], hop, hk, hk⟩
      · obtain ⟨a, ha, hk⟩ := forall₂_mem (hs.post _) hw
        exact ⟨a, by simp [ha], hop, hk, hk⟩
    cases hpl with
    | pre s w h1 hw =>
      obtain ⟨src, _, rfl⟩ := List.mem_map.1 hi
      exact edge (Or.inl hw)
    | post s w h1 hw =>
      obtain ⟨src, _, rfl⟩ := List.mem_map.1 hi
      exact edge (Or.inr hw)
    | layer j s o k w ins hl hw hins =>
      obtain ⟨src, hsrc, hin⟩ : ∃ src ∈ s.sources, (f.env.inLayer src.model e.1 (src.start + o))[k]? = some i.2 := by
        obtain ⟨src, hsrc, h⟩ := forall₂_mem hins hi
        exact ⟨src, hsrc, h.2⟩
      obtain ⟨q, hq⟩ := start e he s (inSlice hl) src hsrc o
      obtain ⟨a, wi, ha, hk, hwi, hk', t, ht, ht'⟩ := layer_templates hmm hs hw src.model q
      rw [hq, hwi, Option.some.injEq] at hin
      rw [← hin]
      exact ⟨⟨_, q, t, ht, ht'⟩, a, by simp [ha], hop, hk, hk'⟩
  refine ⟨hf.given, hf.even, hf.once, hf.plain, hf.ends, ?_, ?_, ?_, ?_, ?_⟩
  · intro e he j s o k w hl hw src hsrc
    obtain ⟨m, ts, hm, hmm, hts, hs, hck, hco, hop, _⟩ := key e he
    obtain ⟨q, hq⟩ := start e he s (inSlice hl) src hsrc o
    obtain ⟨a, wi, _, _, hwi, _⟩ := layer_templates hmm hs hw src.model q
    exact ⟨wi, by rw [hq, hwi]⟩
  · intro e he w s t ins hpl ho i hi
    obtain ⟨m, ts, _, _, _, a, ha, hop, hk, hk'⟩ := input e he w s t ins hpl i hi
    exact hk'.2.1 (hop a ha (by rw [← hk.1]; exact ho))
  · intro e he w s t ins hpl i hi
    obtain ⟨m, ts, hco, hg, ⟨n, j, u, hu, hname⟩, _⟩ := input e he w s t ins hpl i hi
    rw [hname]
    exact text_no_colon (hg u hu) (hco u hu) n j
  · rw [List.map_flatMap, List.nodup_flatMap]
    constructor
    · intro e he
      obtain ⟨m, ts, hm, hmm, hts, hs, hck, _⟩ := key e he
      rw [env_weights hmm]
      exact outWeights_nodup hck _ _ (hf.depth e he m hm)
    · have hpw : f.modules.Pairwise (fun a b => checkCross a.2 b.2 = true) := by
        have := Arch.pairs_iff.1 hc2
        rwa [List.pairwise_map] at this
      have hpw' : ∀ ⦃a⦄, a ∈ f.modules → ∀ ⦃b⦄, b ∈ f.modules → a ≠ b → checkCross a.2 b.2 = true ∨ checkCross b.2 a.2 = true :=
        have : Std.Symm (fun a b : String × Module => checkCross a.2 b.2 = true ∨ checkCross b.2 a.2 = true) := ⟨fun a b h => h.symm⟩
        List.Pairwise.forall (hpw.imp (fun h => Or.inl h))
      have hd := hf.distinct
      rw [List.Nodup, List.pairwise_map] at hd
      refine List.Pairwise.imp_of_mem ?_ hd
      intro e e' he he' hne
      obtain ⟨m, ts, hm, hmm, hts, hs, hck, _⟩ := key e he
      obtain ⟨m', ts', hm', hmm', hts', hs', hck', _⟩ := key e' he'
      simp only [Function.onFun, List.disjoint_left]
      intro x hx hx'
      obtain ⟨w, hw, rfl⟩ := List.mem_map.1 hx
      obtain ⟨w', hw', e2⟩ := List.mem_map.1 hx'
      rw [env_weights hmm] at hw
      rw [env_weights hmm'] at hw'
      rcases hpw' hm hm' (by intro h; exact hne (Prod.mk.inj h).1) with h | h
      · exact cross_disjoint hck hck' h _ _ _ _ hw hw' e2.symm
      · exact cross_disjoint hck' hck h _ _ _ _ hw' hw e2
  · obtain ⟨e, he⟩ := List.exists_mem_of_ne_nil _ hf.some_module
    obtain ⟨m, ts, hm, hmm, hts, hs, hck, hco, hop, a, ha, hreq⟩ := key e he
    obtain ⟨s, ss, hsl⟩ := hf.given e he
    refine ⟨e, he, ?_⟩
    rw [hsl]
    rcases List.mem_append.1 ha with ha | ha
    · obtain ⟨k, hk⟩ := List.mem_iff_getElem?.1 ha
      obtain ⟨w, hw, hkeep⟩ := forall₂_get' (hs.pre (m.numLayers (f.outLayers e.1))) hk
      refine ⟨w, s, 0, _, .pre s w rfl (by simp only [Family.env, hmm]; exact List.mem_of_getElem? hw), ?_⟩
      rintro ⟨ho, _⟩
      rw [hkeep.1, hreq] at ho
      cases ho
    · obtain ⟨k, hk⟩ := List.mem_iff_getElem?.1 ha
      obtain ⟨w, hw, hkeep⟩ := forall₂_get' (hs.post (m.numLayers (f.outLayers e.1))) hk
      refine ⟨w, (s :: ss).getLast (by simp), 0, _, .post _ w (by simp [List.getLast?_eq_some_getLast]) (by simp only [Family.env, hmm]; exact List.mem_of_getElem? hw), ?_⟩
      rintro ⟨ho, _⟩
      rw [hkeep.1, hreq] at ho
      cases ho

/-- Every shipped definition but those of Qwen2-VL, Qwen2.5-VL (names occur twice, see C63) and BertModel passes the checks. -/
theorem shipped_checked : ∀ ms ∈ distinctArchs.eraseIdx 6, checkArch ms = true ∧ ms.all checkPlan = true := by
  have h : (distinctArchs.eraseIdx 6).all (fun ms => checkArch ms && ms.all checkPlan) = true := by decide +kernel
  intro ms hms
  have := List.all_eq_true.1 h ms hms
  rwa [Bool.and_eq_true] at this

end

end Verif.Shipped
