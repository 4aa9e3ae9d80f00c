import Verif.Spec.Plan
import Mathlib.Data.List.Forall2

namespace Verif.Plan

open Verif.ModelRef (Str Ref)
open Verif.Config
open Verif.LoadTask (WeightInfo)

section
variable {K : Type} [Field K] [LinearOrder K] [FloorRing K]

theorem anyWeight_ok (env : Env K) : ∀ (ins : List (Ref × WeightInfo)) (b : Bool), anyWeight env ins = .ok b →
    (b = true → ∃ m wi, (m, wi) ∈ ins ∧ wi.name ∈ env.indexNames m) ∧
    (b = false → ∀ m wi, (m, wi) ∈ ins → wi.name ∉ env.indexNames m) := by
  intro ins
  induction ins with
  | nil =>
    intro b h
    simp only [anyWeight, Except.ok.injEq] at h
    subst h
    simp
  | cons e rest ih =>
    obtain ⟨m, w⟩ := e
    intro b h
    unfold anyWeight at h
    split at h
    · cases h
    · split at h
      · rename_i hin
        simp only [Except.ok.injEq] at h
        subst h
        exact ⟨fun _ => ⟨m, w, by simp, hin⟩, fun h => by cases h⟩
      · rename_i hin
        obtain ⟨h1, h2⟩ := ih b h
        refine ⟨fun hb => ?_, fun hb m' w' hmem => ?_⟩
        · obtain ⟨m', w', a, b⟩ := h1 hb
          exact ⟨m', w', by simp [a], b⟩
        · rcases List.mem_cons.1 hmem with heq | hmem
          · cases heq; exact hin
          · exact h2 hb m' w' hmem

theorem readParams_ok (r : Reader K) (model : Option Ref) (isBase : Bool) : ∀ (ds : List (ParamDef K)) ps,
    readParams r model isBase ds = .ok ps → List.Forall₂ (fun (d : ParamDef K) e => e.1 = d.name ∧
      r.parameter d.name model d.default (d.required && !isBase) = .ok e.2) ds ps := by
  intro ds
  induction ds with
  | nil => intro ps h; simp only [readParams, Except.ok.injEq] at h; subst h; exact .nil
  | cons d ds ih =>
    intro ps h
    unfold readParams at h
    cases hp : r.parameter d.name model d.default (d.required && !isBase) with
    | error e => rw [hp] at h; cases h
    | ok v =>
      rw [hp] at h
      simp only at h
      cases hr : readParams r model isBase ds with
      | error e => rw [hr] at h; cases h
      | ok vs =>
        rw [hr] at h
        simp only [Except.ok.injEq] at h
        subst h
        exact .cons ⟨rfl, hp⟩ (ih vs hr)

theorem readTensorParams_ok (env : Env K) (r : Reader K) (base : Option Ref) : ∀ (ins : List (Ref × WeightInfo)) tp,
    readTensorParams env r base ins = .ok tp → List.Forall₂ (fun (i : Ref × WeightInfo) e => e.1 = i.1 ∧
        List.Forall₂ (fun (d : ParamDef K) e' => e'.1 = d.name ∧
          (r.forTensor i.2.name).parameter d.name (some i.1) d.default
            (d.required && !decide (some i.1 = base)) = .ok e'.2) env.tensorParams e.2) ins tp := by
  intro ins
  induction ins with
  | nil => intro ps h; simp only [readTensorParams, Except.ok.injEq] at h; subst h; exact .nil
  | cons i ins ih =>
    obtain ⟨m, w⟩ := i
    intro ps h
    unfold readTensorParams at h
    cases hp : readParams (r.forTensor w.name) (some m) (decide (some m = base)) env.tensorParams with
    | error e => rw [hp] at h; cases h
    | ok v =>
      rw [hp] at h
      simp only at h
      cases hr : readTensorParams env r base ins with
      | error e => rw [hr] at h; cases h
      | ok vs =>
        rw [hr] at h
        simp only [Except.ok.injEq] at h
        subst h
        exact .cons ⟨rfl, readParams_ok _ _ _ _ _ hp⟩ (ih vs hr)

theorem planPresent_ok (env : Env K) (w : WeightInfo) (ins : List (Ref × WeightInfo)) (r : Reader K) (o)
    (h : planPresent env w ins r = .ok o)
    (hopt : w.optional = true → ∃ m wi, (m, wi) ∈ ins ∧ wi.name ∈ env.indexNames m) : TensorPlan env r w ins o := by
  unfold planPresent at h
  cases hp : readParams (r.forTensor w.name) none false env.params with
  | error e => rw [hp] at h; cases h
  | ok gp =>
    rw [hp] at h
    simp only at h
    cases ht : readTensorParams env r r.baseModel ins with
    | error e => rw [ht] at h; cases h
    | ok tp =>
      rw [ht] at h
      simp only [Except.ok.injEq] at h
      subst h
      refine .planned _ rfl hopt rfl ?_ ⟨tp, rfl, readTensorParams_ok _ _ _ _ _ ht⟩ rfl
      have := readParams_ok _ _ _ _ _ hp
      simpa using this

theorem planTensor_ok (env : Env K) (w : WeightInfo) (wsIn : List WeightInfo) (models : List Ref) (r : Reader K) (o)
    (h : planTensor env w wsIn models r = .ok o) : TensorPlan env r w (models.zip wsIn) o := by
  unfold planTensor at h
  split at h
  · rename_i hopt
    cases ha : anyWeight env (models.zip wsIn) with
    | error e => rw [ha] at h; cases h
    | ok b =>
      obtain ⟨h1, h2⟩ := anyWeight_ok env _ _ ha
      rw [ha] at h
      cases b with
      | false =>
        simp only [Except.ok.injEq] at h
        subst h
        exact .skipped hopt (h2 rfl)
      | true =>
        simp only at h
        exact planPresent_ok env w _ r o h (fun _ => h1 rfl)
  · rename_i hopt
    exact planPresent_ok env w _ r o h (fun hh => absurd hh hopt)

theorem column_ok : ∀ (wsIn : List (List WeightInfo)) (idx : Nat) (col : List WeightInfo),
    column wsIn idx = some col → List.Forall₂ (fun ws w => ws[idx]? = some w) wsIn col := by
  intro wsIn idx
  induction wsIn with
  | nil => intro col h; simp [column] at h; subst h; exact .nil
  | cons ws rest ih =>
    intro col h
    unfold column at h
    rw [List.mapM_cons] at h
    cases hw : ws[idx]? with
    | none => rw [hw] at h; cases h
    | some w =>
      rw [hw] at h
      cases hc : rest.mapM (fun ws => ws[idx]?) with
      | none => rw [hc] at h; cases h
      | some c =>
        rw [hc] at h
        cases h
        exact .cons hw (ih c hc)

/-- What is right for weight number `k` of a layer. -/
def LayerWeightPlan (env : Env K) (module : String) (s : OutSlice K) (offset : Nat) (r : Reader K) (k : Nat)
    (w : WeightInfo) (o : Option (Planned K)) : Prop :=
  ∃ ins, List.Forall₂ (fun (src : InSlice K) (i : Ref × WeightInfo) => i.1 = src.model ∧
      (env.inLayer src.model module (src.start + offset))[k]? = some i.2) s.sources ins ∧
    TensorPlan env r w ins o

theorem planWeights_ok (env : Env K) (module : String) (s : OutSlice K) (offset : Nat) (r : Reader K) :
    ∀ (ws : List WeightInfo) (idx : Nat) (os),
    planWeights env (s.sources.map (fun s => env.inLayer s.model module (s.start + offset)))
      (s.sources.map (·.model)) r idx ws = .ok os →
    os.length = ws.length ∧ ∀ k w o, ws[k]? = some w → os[k]? = some o →
      LayerWeightPlan env module s offset r (idx + k) w o := by
  intro ws
  induction ws with
  | nil =>
    intro idx os h
    simp only [planWeights, Except.ok.injEq] at h
    subst h
    simp
  | cons w ws ih =>
    intro idx os h
    unfold planWeights at h
    cases hc : column (s.sources.map (fun s => env.inLayer s.model module (s.start + offset))) idx with
    | none => rw [hc] at h; cases h
    | some col =>
      rw [hc] at h
      simp only at h
      cases hp : planTensor env w col (s.sources.map (·.model)) r with
      | error e => rw [hp] at h; cases h
      | ok o =>
        rw [hp] at h
        simp only at h
        cases hr : planWeights env (s.sources.map (fun s => env.inLayer s.model module (s.start + offset)))
          (s.sources.map (·.model)) r (idx + 1) ws with
        | error e => rw [hr] at h; cases h
        | ok rest =>
          rw [hr] at h
          simp only [Except.ok.injEq] at h
          subst h
          obtain ⟨i1, i2⟩ := ih _ _ hr
          refine ⟨by simp [i1], ?_⟩
          intro k w' o' hk ho
          cases k with
          | zero =>
            simp only [List.getElem?_cons_zero, Option.some.injEq] at hk ho
            subst hk ho
            refine ⟨(s.sources.map (·.model)).zip col, ?_, planTensor_ok _ _ _ _ _ _ hp⟩
            have hcol := column_ok _ _ _ hc
            rw [List.forall₂_map_left_iff] at hcol
            clear hc hp hr
            generalize s.sources = srcs at hcol
            induction hcol with
            | nil => exact .nil
            | cons h1 _ ih' => exact .cons ⟨rfl, by simpa using h1⟩ ih'
          | succ k =>
            simp only [List.getElem?_cons_succ] at hk ho
            have := i2 k w' o' hk ho
            rwa [show idx + 1 + k = idx + (k + 1) by omega] at this

theorem planLayers_ok (env : Env K) (module : String) (s : OutSlice K) (n : Int) (r : Reader K) :
    ∀ (todo idx current : Nat) (ls), planLayers env module s.sources n r todo idx current = .ok ls →
    ls.length = todo ∧ ∀ i l, ls[i]? = some l →
      l.length = (env.outLayer module (current + i)).length ∧
      ∀ k w o, (env.outLayer module (current + i))[k]? = some w → l[k]? = some o →
        LayerWeightPlan env module s (idx + i) (r.withT (depth n (idx + i))) k w o := by
  intro todo
  induction todo with
  | zero =>
    intro idx current ls h
    simp only [planLayers, Except.ok.injEq] at h
    subst h
    simp
  | succ todo ih =>
    intro idx current ls h
    unfold planLayers at h
    cases hl : planLayer env module s.sources idx (depth n idx) r current with
    | error e => rw [hl] at h; cases h
    | ok l =>
      rw [hl] at h
      simp only at h
      cases hr : planLayers env module s.sources n r todo (idx + 1) (current + 1) with
      | error e => rw [hr] at h; cases h
      | ok rest =>
        rw [hr] at h
        simp only [Except.ok.injEq] at h
        subst h
        obtain ⟨i1, i2⟩ := ih _ _ _ hr
        refine ⟨by simp [i1], ?_⟩
        intro i l' hi
        cases i with
        | zero =>
          simp only [List.getElem?_cons_zero, Option.some.injEq] at hi
          subst hi
          unfold planLayer at hl
          obtain ⟨j1, j2⟩ := planWeights_ok env module s idx _ _ _ _ hl
          refine ⟨j1, ?_⟩
          intro k w o hw ho
          have := j2 k w o hw ho
          simpa using this
        | succ i =>
          simp only [List.getElem?_cons_succ] at hi
          have := i2 i l' hi
          rw [show current + 1 + i = current + (i + 1) by omega, show idx + 1 + i = idx + (i + 1) by omega] at this
          exact this

/-- All sources of a slice have the length of the slice. -/
def EvenSlice (s : OutSlice K) : Prop :=
  s.sources ≠ [] ∧ ∀ a ∈ s.sources, ∀ b ∈ s.sources, a.stop - a.start = b.stop - b.start

theorem planSlice_ok (env : Env K) (c : MergeConfig K) (module : String) (d : OutModule K) (s : OutSlice K)
    (current : Nat) (ls) (h : planSlice env c module d s current = .ok ls) :
    EvenSlice s ∧ ls.length = OutSlice.len s ∧ ∀ i l, ls[i]? = some l →
      l.length = (env.outLayer module (current + i)).length ∧
      ∀ k w o, (env.outLayer module (current + i))[k]? = some w → l[k]? = some o →
        LayerWeightPlan env module s i (sliceReader c d s (depth (OutSlice.len s) i)) k w o := by
  unfold planSlice at h
  cases hs : s.sources with
  | nil => rw [hs] at h; cases h
  | cons a as =>
    rw [hs] at h
    simp only [List.map_cons] at h
    split at h
    · rename_i hall
      rw [← hs] at h
      obtain ⟨i1, i2⟩ := planLayers_ok env module s _ _ _ _ _ _ h
      have hlen : OutSlice.len s = (a.stop - a.start).toNat := by simp [OutSlice.len, hs]
      refine ⟨⟨by simp [hs], ?_⟩, by rw [hlen, i1], ?_⟩
      · have hall' : ∀ x ∈ s.sources, x.stop - x.start = a.stop - a.start := by
          intro x hx
          rw [hs] at hx
          rw [List.all_eq_true] at hall
          have := hall (x.stop - x.start) (by
            rcases List.mem_cons.1 hx with rfl | hx
            · simp
            · exact List.mem_cons_of_mem _ (List.mem_map.2 ⟨x, hx, rfl⟩))
          simpa using this
        intro x hx y hy
        rw [hall' x hx, hall' y hy]
      · intro i l hi
        obtain ⟨j1, j2⟩ := i2 i l hi
        refine ⟨j1, fun k w o hw ho => ?_⟩
        have := j2 k w o hw ho
        have hpos : (i : Nat) < (a.stop - a.start).toNat := by
          have := (List.getElem?_eq_some_iff.1 hi).1
          omega
        have hdep : depth (K := K) (a.stop - a.start) i = depth (OutSlice.len s : Int) i := by
          rw [hlen]
          congr 1
          omega
        rw [Nat.zero_add, hdep] at this
        simpa [Reader.withT, sliceReader] using this
    · cases h

theorem planSlices_ok (env : Env K) (c : MergeConfig K) (module : String) (d : OutModule K) :
    ∀ (ss : List (OutSlice K)) (current : Nat) (ls), planSlices env c module d ss current = .ok ls →
    (∀ s ∈ ss, EvenSlice s) ∧ ls.length = (layout ss).length ∧ ∀ (j : Nat) (l : List (Option (Planned K))) (s : OutSlice K)
      (i : Nat), ls[j]? = some l → (layout ss)[j]? = some (s, i) →
      l.length = (env.outLayer module (current + j)).length ∧
      ∀ k w o, (env.outLayer module (current + j))[k]? = some w → l[k]? = some o →
        LayerWeightPlan env module s i (sliceReader c d s (depth (OutSlice.len s) i)) k w o := by
  intro ss
  induction ss with
  | nil =>
    intro current ls h
    simp only [planSlices, Except.ok.injEq] at h
    subst h
    simp [layout]
  | cons s ss ih =>
    intro current ls h
    unfold planSlices at h
    cases hs : planSlice env c module d s current with
    | error e => rw [hs] at h; cases h
    | ok a =>
      rw [hs] at h
      simp only at h
      cases hr : planSlices env c module d ss (current + a.length) with
      | error e => rw [hr] at h; cases h
      | ok rest =>
        rw [hr] at h
        simp only [Except.ok.injEq] at h
        subst h
        obtain ⟨e1, e2, e3⟩ := planSlice_ok env c module d s current a hs
        obtain ⟨i1, i2, i3⟩ := ih _ _ hr
        have hlay : layout (s :: ss) = (List.range (OutSlice.len s)).map (fun o => (s, o)) ++ layout ss := by
          simp [layout]
        refine ⟨?_, ?_, ?_⟩
        · intro x hx
          rcases List.mem_cons.1 hx with rfl | hx
          · exact e1
          · exact i1 x hx
        · rw [hlay]; simp [e2, i2]
        · intro j l s' i hj hl
          rw [hlay] at hl
          by_cases hlt : j < a.length
          · rw [List.getElem?_append_left hlt] at hj
            rw [List.getElem?_append_left (by simpa [e2] using hlt)] at hl
            simp only [List.getElem?_map, Option.map_eq_some_iff, Prod.mk.injEq] at hl
            obtain ⟨x, hx, h1, h2⟩ := hl
            subst h1 h2
            have : x = j := by
              have := List.getElem?_eq_some_iff.1 hx
              obtain ⟨_, h⟩ := this
              simpa using h.symm
            subst this
            exact e3 x l hj
          · have hge : a.length ≤ j := by omega
            rw [List.getElem?_append_right hge] at hj
            rw [List.getElem?_append_right (by simpa [e2] using hge)] at hl
            simp only [List.length_map, List.length_range, ← e2] at hl
            have := i3 (j - a.length) l s' i hj hl
            rw [show current + a.length + (j - a.length) = current + j by omega] at this
            exact this

theorem planEdge_ok (env : Env K) (c : MergeConfig K) (d : OutModule K) (count : Nat) (s : OutSlice K) :
    ∀ (ws : List WeightInfo) (os), planEdge env c d count s ws = .ok os →
    List.Forall₂ (fun w o => TensorPlan env (sliceReader c d s 0) w
      ((s.sources.map (·.model)).zip (List.replicate count w)) o) ws os := by
  intro ws
  induction ws with
  | nil => intro os h; simp only [planEdge, Except.ok.injEq] at h; subst h; exact .nil
  | cons w ws ih =>
    intro os h
    unfold planEdge at h
    cases hp : planTensor env w (List.replicate count w) (s.sources.map (·.model))
        ((({ config := c, t := 0, module := some d } : Reader K).forTensor w.name).forOutSlice s) with
    | error e => rw [hp] at h; cases h
    | ok o =>
      rw [hp] at h
      simp only at h
      cases hr : planEdge env c d count s ws with
      | error e => rw [hr] at h; cases h
      | ok rest =>
        rw [hr] at h
        simp only [Except.ok.injEq] at h
        subst h
        refine .cons ?_ (ih rest hr)
        have := planTensor_ok _ _ _ _ _ _ hp
        cases this with
        | skipped h1 h2 => exact .skipped h1 h2
        | planned p h1 h2 h3 h4 h5 h6 => exact .planned p h1 h2 h3 h4 h5 h6

/-- Everything a module plan contains. -/
structure GoodModule (env : Env K) (c : MergeConfig K) (module : String) (d : OutModule K) (s : OutSlice K)
    (ss : List (OutSlice K)) (mp : ModulePlan K) : Prop where
  even : ∀ x ∈ s :: ss, EvenSlice x
  pre : List.Forall₂ (fun w o => TensorPlan env (sliceReader c d s 0) w
      ((s.sources.map (·.model)).zip (List.replicate s.sources.length w)) o) (env.outPre module) mp.pre
  count : mp.layers.length = (layout (s :: ss)).length
  layer : ∀ (j : Nat) (l : List (Option (Planned K))) (x : OutSlice K) (i : Nat), mp.layers[j]? = some l →
      (layout (s :: ss))[j]? = some (x, i) →
      l.length = (env.outLayer module j).length ∧
      ∀ k w o, (env.outLayer module j)[k]? = some w → l[k]? = some o →
        LayerWeightPlan env module x i (sliceReader c d x (depth (OutSlice.len x) i)) k w o
  post : List.Forall₂ (fun w o => TensorPlan env (sliceReader c d ((s :: ss).getLast (by simp)) 0) w
      ((((s :: ss).getLast (by simp)).sources.map (·.model)).zip (List.replicate s.sources.length w)) o)
      (env.outPost module) mp.post

theorem planModule_ok (env : Env K) (c : MergeConfig K) (module : String) (d : OutModule K) (mp : ModulePlan K)
    (h : planModule env c module d = .ok mp) :
    ∃ s ss, d.slices = some (s :: ss) ∧ GoodModule env c module d s ss mp := by
  unfold planModule at h
  split at h
  · cases h
  · cases h
  · rename_i s ss hd
    refine ⟨s, ss, hd, ?_⟩
    cases hpre : planEdge env c d s.sources.length s (env.outPre module) with
    | error e => rw [hpre] at h; cases h
    | ok pre =>
      rw [hpre] at h
      simp only at h
      cases hl : planSlices env c module d (s :: ss) 0 with
      | error e => rw [hl] at h; cases h
      | ok ls =>
        rw [hl] at h
        simp only at h
        cases hpost : planEdge env c d s.sources.length ((s :: ss).getLast (by simp)) (env.outPost module) with
        | error e => rw [hpost] at h; cases h
        | ok post =>
          rw [hpost] at h
          simp only [Except.ok.injEq] at h
          subst h
          obtain ⟨h1, h2, h3⟩ := planSlices_ok env c module d _ _ _ hl
          refine ⟨h1, planEdge_ok _ _ _ _ _ _ _ hpre, h2, ?_, planEdge_ok _ _ _ _ _ _ _ hpost⟩
          intro j l x i hj hlay
          have := h3 j l x i hj hlay
          simpa using this

end

end Verif.Plan
