import Verif.Spec.Graph
import Mathlib.Logic.Relation
import Mathlib.Data.List.Nodup
import Mathlib.Data.Fintype.List
import Mathlib.Order.WellFounded
import Mathlib.Data.Fintype.EquivFin
import Mathlib.Data.Fintype.Order
import Mathlib.Data.Finite.Defs
import Mathlib.Data.List.Perm.Basic

set_option linter.unusedSectionVars false
set_option linter.unusedSimpArgs false
set_option linter.unusedVariables false

namespace Verif.Graph

variable {n : Nat}

/-! ## Exploration -/

theorem explore_sound (G : TaskGraph n) (cached : Fin n → Bool) (pop : PopOracle n)
    (targets : List (Fin n)) (step : Nat) (explored toExplore : Finset (Fin n))
    (edges : List (Node n × Node n))
    (hT : ∀ x ∈ toExplore, cached x = false → Needed G cached targets x)
    (hE : ∀ e ∈ edges, ∃ d t, e = (some d, some t) ∧ Needed G cached targets t ∧ d ∈ G.deps t) :
    ∀ e ∈ explore G cached pop step explored toExplore edges,
      ∃ d t, e = (some d, some t) ∧ Needed G cached targets t ∧ d ∈ G.deps t := by
  fun_induction explore G cached pop step explored toExplore edges with
  | case1 step explored toExplore edges h t ht ih =>
    exact ih (fun x hx => hT x (Finset.mem_of_mem_erase hx)) hE
  | case2 step explored toExplore edges h t ht hc ih =>
    exact ih (fun x hx => hT x (Finset.mem_of_mem_erase hx)) hE
  | case3 step explored toExplore edges h t ht hc ih =>
    have htn : Needed G cached targets t := hT t (pop step toExplore h).2 (by simpa using hc)
    apply ih
    · intro x hx hcx
      rcases Finset.mem_union.1 hx with hx | hx
      · exact hT x (Finset.mem_of_mem_erase hx) hcx
      · exact htn.dep (by simpa using hx) hcx
    · intro e he
      rcases List.mem_append.1 he with he | he
      · exact hE e he
      · obtain ⟨d, hd, rfl⟩ := List.mem_map.1 he
        exact ⟨d, t, rfl, htn, hd⟩
  | case4 step explored toExplore edges h => exact hE

theorem explore_complete (G : TaskGraph n) (cached : Fin n → Bool) (pop : PopOracle n)
    (targets : List (Fin n)) (step : Nat) (explored toExplore : Finset (Fin n))
    (edges : List (Node n × Node n))
    (h0 : ∀ x ∈ targets, x ∈ explored ∨ x ∈ toExplore)
    (h1 : ∀ t ∈ explored, cached t = false → ∀ d ∈ G.deps t,
      (d ∈ explored ∨ d ∈ toExplore) ∧ (some d, some t) ∈ edges) :
    ∀ t, Needed G cached targets t → ∀ d ∈ G.deps t,
      (some d, some t) ∈ explore G cached pop step explored toExplore edges := by
  fun_induction explore G cached pop step explored toExplore edges with
  | case1 step explored toExplore edges h t ht ih =>
    have key : ∀ x, (x ∈ explored ∨ x ∈ toExplore) → (x ∈ explored ∨ x ∈ toExplore.erase t) := by
      intro x hx
      by_cases hxt : x = t
      · left; rw [hxt]; exact ht
      · rcases hx with hx | hx
        · exact Or.inl hx
        · exact Or.inr (Finset.mem_erase.2 ⟨hxt, hx⟩)
    exact ih (fun x hx => key x (h0 x hx))
      (fun u hu hc d hd => ⟨key d (h1 u hu hc d hd).1, (h1 u hu hc d hd).2⟩)
  | case2 step explored toExplore edges h t ht hc ih =>
    have key : ∀ x, (x ∈ explored ∨ x ∈ toExplore) →
        (x ∈ insert t explored ∨ x ∈ toExplore.erase t) := by
      intro x hx
      by_cases hxt : x = t
      · left; rw [hxt]; exact Finset.mem_insert_self _ _
      · rcases hx with hx | hx
        · exact Or.inl (Finset.mem_insert_of_mem hx)
        · exact Or.inr (Finset.mem_erase.2 ⟨hxt, hx⟩)
    refine ih (fun x hx => key x (h0 x hx)) (fun u hu hcu d hd => ?_)
    rcases Finset.mem_insert.1 hu with rfl | hu
    · rw [hc] at hcu; cases hcu
    · exact ⟨key d (h1 u hu hcu d hd).1, (h1 u hu hcu d hd).2⟩
  | case3 step explored toExplore edges h t ht hc ih =>
    have key : ∀ x, (x ∈ explored ∨ x ∈ toExplore) →
        (x ∈ insert t explored ∨ x ∈ toExplore.erase t ∪ (G.deps t).toFinset) := by
      intro x hx
      by_cases hxt : x = t
      · left; rw [hxt]; exact Finset.mem_insert_self _ _
      · rcases hx with hx | hx
        · exact Or.inl (Finset.mem_insert_of_mem hx)
        · exact Or.inr (Finset.mem_union_left _ (Finset.mem_erase.2 ⟨hxt, hx⟩))
    refine ih (fun x hx => key x (h0 x hx)) (fun u hu hcu d hd => ?_)
    rcases Finset.mem_insert.1 hu with rfl | hu
    · exact ⟨Or.inr (Finset.mem_union_right _ (by simpa using hd)),
        List.mem_append_right _ (List.mem_map.2 ⟨d, hd, rfl⟩)⟩
    · exact ⟨key d (h1 u hu hcu d hd).1, List.mem_append_left _ (h1 u hu hcu d hd).2⟩
  | case4 step explored toExplore edges h =>
    have hempty : toExplore = ∅ := Finset.not_nonempty_iff_eq_empty.1 h
    have hex : ∀ t, Needed G cached targets t → t ∈ explored := by
      intro t ht
      induction ht with
      | target hm _ => simpa [hempty] using h0 _ hm
      | @dep t d ht hd _ ih =>
        have hct : cached t = false := by cases ht <;> assumption
        simpa [hempty] using (h1 t ih hct d hd).1
    intro t ht d hd
    have hct : cached t = false := by cases ht <;> assumption
    exact (h1 t (hex t ht) hct d hd).2

theorem mem_edgeTups (G : TaskGraph n) (cached : Fin n → Bool) (pop : PopOracle n)
    (targets : List (Fin n)) (e : Node n × Node n) :
    e ∈ edgeTups G cached pop targets ↔
      (∃ d t, e = (some d, some t) ∧ Needed G cached targets t ∧ d ∈ G.deps t) ∨
      (∃ t ∈ targets, e = (none, some t)) := by
  unfold edgeTups
  rw [List.mem_append]
  constructor
  · rintro (h | h)
    · left
      refine explore_sound G cached pop targets 0 ∅ targets.toFinset [] ?_ (by simp) e h
      intro x hx hc
      exact .target (by simpa using hx) hc
    · right
      obtain ⟨t, ht, rfl⟩ := List.mem_map.1 h
      exact ⟨t, ht, rfl⟩
  · rintro (⟨d, t, rfl, ht, hd⟩ | ⟨t, ht, rfl⟩)
    · left
      exact explore_complete G cached pop targets 0 ∅ targets.toFinset [] (by simp) (by simp) t ht d hd
    · right
      exact List.mem_map.2 ⟨t, ht, rfl⟩

/-! ## Insertion-ordered sets -/

section InsertNew
variable {α : Type} [DecidableEq α]

theorem mem_insertNew (l : List α) (x y : α) : y ∈ insertNew l x ↔ y ∈ l ∨ y = x := by
  unfold insertNew; split
  · constructor
    · exact Or.inl
    · rintro (h | rfl) <;> assumption
  · simp

theorem nodup_insertNew {l : List α} (x : α) (h : l.Nodup) : (insertNew l x).Nodup := by
  unfold insertNew; split
  · exact h
  · rename_i hx
    rw [List.nodup_append]
    refine ⟨h, by simp, ?_⟩
    intro a ha b hb
    rw [List.mem_singleton.1 hb]
    rintro rfl; exact hx ha
end InsertNew

theorem mem_edgesOf (es : List (Node n × Node n)) (e) : e ∈ edgesOf es ↔ e ∈ es := by
  have : ∀ (acc : List (Node n × Node n)), e ∈ es.foldl insertNew acc ↔ e ∈ acc ∨ e ∈ es := by
    induction es with
    | nil => simp
    | cons a l ih => intro acc; simp [ih, mem_insertNew, or_assoc]
  simpa [edgesOf] using this []

theorem nodup_edgesOf (es : List (Node n × Node n)) : (edgesOf es).Nodup := by
  have : ∀ (acc : List (Node n × Node n)), acc.Nodup → (es.foldl insertNew acc).Nodup := by
    induction es with
    | nil => simp
    | cons a l ih => intro acc h; exact ih _ (nodup_insertNew _ h)
  exact this [] List.nodup_nil

theorem mem_nodesOf (es : List (Node n × Node n)) (v) :
    v ∈ nodesOf es ↔ ∃ e ∈ es, v = e.1 ∨ v = e.2 := by
  have : ∀ (acc : List (Node n)),
      v ∈ es.foldl (fun l e => insertNew (insertNew l e.1) e.2) acc ↔
        v ∈ acc ∨ ∃ e ∈ es, v = e.1 ∨ v = e.2 := by
    induction es with
    | nil => simp
    | cons a l ih => intro acc; simp [ih, mem_insertNew, or_assoc]
  simpa [nodesOf] using this []

theorem nodup_nodesOf (es : List (Node n × Node n)) : (nodesOf es).Nodup := by
  have : ∀ (acc : List (Node n)), acc.Nodup →
      (es.foldl (fun l e => insertNew (insertNew l e.1) e.2) acc).Nodup := by
    induction es with
    | nil => simp
    | cons a l ih => intro acc h; exact ih _ (nodup_insertNew _ (nodup_insertNew _ h))
  exact this [] List.nodup_nil

/-! ## Kahn's algorithm with a heap -/

section Kahn
variable {α : Type} [DecidableEq α]

theorem heapMin_mem (lt : α → α → Bool) (a : α) (l : List α) : heapMin lt a l ∈ a :: l := by
  induction l generalizing a with
  | nil => simp [heapMin]
  | cons b l ih =>
    have := ih (if lt b a then b else a)
    simp only [heapMin]
    rcases List.mem_cons.1 this with h | h
    · rw [h]; split <;> simp
    · simp [h]

/-- For a strict weak order, `heapMin` is minimal. -/
theorem heapMin_min (lt : α → α → Bool) (irr : ∀ a, lt a a = false)
    (ntrans : ∀ a b c, lt a b = false → lt b c = false → lt a c = false)
    (asymm : ∀ a b, lt a b = true → lt b a = false)
    (a : α) (l : List α) : ∀ b ∈ a :: l, lt b (heapMin lt a l) = false := by
  induction l generalizing a with
  | nil => simp [heapMin, irr]
  | cons c l ih =>
    intro b hb
    simp only [heapMin]
    have hh := ih (if lt c a then c else a)
    have h0 := hh _ (List.mem_cons_self)
    rcases List.mem_cons.1 hb with rfl | hb
    · refine ntrans _ _ _ ?_ h0
      split
      · exact asymm _ _ ‹_›
      · exact irr _
    · rcases List.mem_cons.1 hb with rfl | hb
      · refine ntrans _ _ _ ?_ h0
        split
        · exact irr _
        · rename_i hf; simpa using hf
      · exact hh b (List.mem_cons_of_mem _ hb)

theorem relax_indeg (indeg : α → Nat) (heap cs : List α) (hcs : cs.Nodup) (v : α) :
    (relax indeg heap cs).1 v = indeg v - (if v ∈ cs then 1 else 0) := by
  induction cs generalizing indeg heap with
  | nil => simp [relax]
  | cons c cs ih =>
    have hc := List.nodup_cons.1 hcs
    simp only [relax]
    rw [ih _ _ hc.2]
    by_cases hv : v = c
    · subst hv; simp [hc.1]
    · simp [Function.update, hv]

theorem relax_heap_mem (indeg : α → Nat) (heap cs : List α) (hcs : cs.Nodup) (v : α) :
    v ∈ (relax indeg heap cs).2 ↔ v ∈ heap ∨ (v ∈ cs ∧ indeg v ≤ 1) := by
  induction cs generalizing indeg heap with
  | nil => simp [relax]
  | cons c cs ih =>
    have hc := List.nodup_cons.1 hcs
    simp only [relax]
    rw [ih _ _ hc.2]
    have e0 : (Function.update indeg c (indeg c - 1) c = 0) ↔ indeg c ≤ 1 := by
      simp only [Function.update_self]; omega
    by_cases hv : v = c
    · subst hv
      simp only [hc.1, e0]
      by_cases h1 : indeg v ≤ 1 <;> simp [h1]
    · have : Function.update indeg c (indeg c - 1) v = indeg v := by simp [hv]
      rw [this]
      split <;> simp [hv]

theorem relax_heap_nodup (indeg : α → Nat) (heap cs : List α) (hcs : cs.Nodup) (hh : heap.Nodup)
    (hd : ∀ c ∈ cs, c ∉ heap) : (relax indeg heap cs).2.Nodup := by
  induction cs generalizing indeg heap with
  | nil => simpa [relax]
  | cons c cs ih =>
    have hc := List.nodup_cons.1 hcs
    simp only [relax]
    apply ih _ _ hc.2
    · split
      · rw [List.nodup_append]
        refine ⟨hh, by simp, ?_⟩
        intro a ha b hb
        rw [List.mem_singleton.1 hb]
        rintro rfl; exact hd _ List.mem_cons_self ha
      · exact hh
    · intro x hx
      have hxh := hd x (List.mem_cons_of_mem _ hx)
      split
      · simp only [List.mem_append, List.mem_singleton, not_or]
        exact ⟨hxh, fun h => hc.1 (h ▸ hx)⟩
      · exact hxh

/-- `ps` lists `α` greedily: each element's predecessors come before it, and it is minimal among all
nodes not yet listed whose predecessors have all been listed. -/
def GreedyTopo (lt : α → α → Bool) (nodes : List α) (E : α → α → Prop) (l : List α) : Prop :=
  ∀ p m q, l = p ++ m :: q →
    (∀ u, E u m → u ∈ p) ∧
    (∀ v ∈ nodes, v ∉ p → (∀ u, E u v → u ∈ p) → lt v m = false)

structure KInv (lt : α → α → Bool) (nodes : List α) (edges : List (α × α))
    (indeg : α → Nat) (heap acc : List α) : Prop where
  accNodup : acc.Nodup
  accSub : ∀ v ∈ acc, v ∈ nodes
  heapNodup : heap.Nodup
  indegEq : ∀ v, indeg v = (edges.filter (fun e => decide (e.2 = v) && decide (e.1 ∉ acc))).length
  heapMem : ∀ v, v ∈ heap ↔ v ∈ nodes ∧ v ∉ acc ∧ indeg v = 0
  greedy : GreedyTopo lt nodes (fun u v => (u, v) ∈ edges) acc

theorem KInv.ready {lt : α → α → Bool} {nodes : List α} {edges : List (α × α)}
    {indeg : α → Nat} {heap acc : List α} (h : KInv lt nodes edges indeg heap acc) (v : α) :
    indeg v = 0 ↔ ∀ u, (u, v) ∈ edges → u ∈ acc := by
  rw [h.indegEq v, List.length_eq_zero_iff, List.filter_eq_nil_iff]
  constructor
  · intro hh u hu
    have := hh (u, v) hu
    simpa using this
  · rintro hh ⟨a, b⟩ hab
    simp only [Bool.and_eq_true, decide_eq_true_eq, not_and, not_not]
    rintro rfl; exact hh a hab

theorem succ_nodup (edges : List (α × α)) (he : edges.Nodup) (m : α) :
    ((edges.filter (fun e => e.1 = m)).map Prod.snd).Nodup := by
  refine List.Nodup.map_on ?_ (he.filter _)
  rintro ⟨a, b⟩ h1 ⟨c, d⟩ h2 h
  have h1 := (List.mem_filter.1 h1).2
  have h2 := (List.mem_filter.1 h2).2
  simp at h1 h2 h
  rw [h1, h2, h]

theorem filter_count_step (edges : List (α × α)) (he : edges.Nodup) (acc : List α) (m v : α)
    (hm : m ∉ acc) :
    (edges.filter (fun e => decide (e.2 = v) && decide (e.1 ∉ acc ++ [m]))).length =
      (edges.filter (fun e => decide (e.2 = v) && decide (e.1 ∉ acc))).length -
        (if v ∈ (edges.filter (fun e => e.1 = m)).map Prod.snd then 1 else 0) := by
  induction edges with
  | nil => simp
  | cons e l ih =>
    obtain ⟨a, b⟩ := e
    have hl := List.nodup_cons.1 he
    have ih := ih hl.2
    have memiff : (v ∈ (l.filter (fun e => e.1 = m)).map Prod.snd) ↔ (m, v) ∈ l := by
      simp only [List.mem_map, List.mem_filter, Prod.exists, decide_eq_true_eq]
      constructor
      · rintro ⟨x, y, ⟨h1, rfl⟩, rfl⟩; exact h1
      · intro h; exact ⟨m, v, ⟨h, rfl⟩, rfl⟩
    by_cases hb : b = v
    · subst hb
      by_cases ha : a = m
      · subst ha
        have h1 : ¬ (b ∈ (l.filter (fun e => e.1 = a)).map Prod.snd) := fun h => hl.1 (memiff.1 h)
        rw [if_neg h1] at ih
        simp only [List.filter_cons, List.map_cons]
        simpa [hm] using ih
      · have hpos : (b ∈ (l.filter (fun e => e.1 = m)).map Prod.snd) →
            0 < (l.filter (fun e => decide (e.2 = b) && decide (e.1 ∉ acc))).length := by
          intro h
          apply List.length_pos_of_mem (a := (m, b))
          rw [List.mem_filter]; exact ⟨memiff.1 h, by simp [hm]⟩
        by_cases hacc : a ∈ acc
        · simp only [List.filter_cons]
          simpa [hacc, ha] using ih
        · simp only [List.filter_cons]
          have e1 : (decide True && decide (a ∉ acc ++ [m])) = true := by simp [hacc, ha]
          have e2 : (decide True && decide (a ∉ acc)) = true := by simp [hacc]
          have e3 : decide (a = m) = false := by simp [ha]
          rw [if_pos e1, if_pos e2]
          simp only [e3, List.length_cons, Bool.false_eq_true, if_false]
          rw [ih]
          split
          · rename_i h; have := hpos h; omega
          · rfl
    · simp only [List.filter_cons]
      have e1 : (decide (b = v) && decide (a ∉ acc ++ [m])) = false := by simp [hb]
      have e2 : (decide (b = v) && decide (a ∉ acc)) = false := by simp [hb]
      simp only [e1, e2, Bool.false_eq_true, if_false]
      rw [ih]
      by_cases ha : a = m
      · simp only [ha, decide_true, if_true, List.map_cons, List.mem_cons]
        have : v ≠ b := fun h => hb h.symm
        simp only [this, false_or]
      · simp only [ha, decide_false, Bool.false_eq_true, if_false]

theorem KInv.step {lt : α → α → Bool} (irr : ∀ a, lt a a = false)
    (ntrans : ∀ a b c, lt a b = false → lt b c = false → lt a c = false)
    (asymm : ∀ a b, lt a b = true → lt b a = false)
    {nodes : List α} {edges : List (α × α)} (he : edges.Nodup)
    (hn : ∀ e ∈ edges, e.2 ∈ nodes)
    {indeg : α → Nat} {acc : List α} {a : α} {l : List α}
    (h : KInv lt nodes edges indeg (a :: l) acc) :
    let m := heapMin lt a l
    let r := relax indeg ((a :: l).erase m) ((edges.filter (fun e => e.1 = m)).map Prod.snd)
    KInv lt nodes edges r.1 r.2 (acc ++ [m]) := by
  intro m r
  have hmheap : m ∈ a :: l := heapMin_mem lt a l
  obtain ⟨hmn, hmacc, hm0⟩ := (h.heapMem m).1 hmheap
  have hcs := succ_nodup edges he m
  have memcs : ∀ v, (v ∈ (edges.filter (fun e => e.1 = m)).map Prod.snd) ↔ (m, v) ∈ edges := by
    intro v
    simp only [List.mem_map, List.mem_filter, Prod.exists, decide_eq_true_eq]
    constructor
    · rintro ⟨x, y, ⟨h1, rfl⟩, rfl⟩; exact h1
    · intro h; exact ⟨m, v, ⟨h, rfl⟩, rfl⟩
  have hr1 : ∀ v, r.1 v =
      (edges.filter (fun e => decide (e.2 = v) && decide (e.1 ∉ acc ++ [m]))).length := by
    intro v
    rw [filter_count_step edges he acc m v hmacc, ← h.indegEq v]
    exact relax_indeg _ _ _ hcs v
  have hpos : ∀ v, (m, v) ∈ edges → 0 < indeg v := by
    intro v hv
    rw [h.indegEq v]
    apply List.length_pos_of_mem (a := (m, v))
    rw [List.mem_filter]; exact ⟨hv, by simp [hmacc]⟩
  refine ⟨?_, ?_, ?_, hr1, ?_, ?_⟩
  · rw [List.nodup_append]
    refine ⟨h.accNodup, by simp, ?_⟩
    intro x hx b hb
    rw [List.mem_singleton.1 hb]
    rintro rfl; exact hmacc hx
  · intro v hv
    rcases List.mem_append.1 hv with hv | hv
    · exact h.accSub v hv
    · rw [List.mem_singleton.1 hv]; exact hmn
  · apply relax_heap_nodup _ _ _ hcs (h.heapNodup.erase _)
    intro c hc hc'
    have := ((h.heapMem c).1 (List.mem_of_mem_erase hc')).2.2
    have := hpos c ((memcs c).1 hc)
    omega
  · intro v
    show v ∈ (relax _ _ _).2 ↔ _
    rw [relax_heap_mem _ _ _ hcs, h.heapNodup.mem_erase_iff, memcs]
    have hrv : r.1 v = indeg v - (if (m, v) ∈ edges then 1 else 0) := by
      have := relax_indeg indeg ((a :: l).erase m) _ hcs v
      simp only [memcs] at this
      exact this
    rw [hrv, h.heapMem v]
    simp only [List.mem_append, List.mem_singleton, not_or]
    constructor
    · rintro (⟨hvm, hvn, hva, hv0⟩ | ⟨hmv, hv1⟩)
      · exact ⟨hvn, ⟨hva, hvm⟩, by omega⟩
      · refine ⟨hn _ hmv, ⟨?_, ?_⟩, by simp [hmv]; omega⟩
        · intro hva
          -- v already emitted had all predecessors emitted
          obtain ⟨p, q, hpq⟩ := List.append_of_mem hva
          have := (h.greedy p v q hpq).1 m hmv
          exact hmacc (hpq ▸ List.mem_append_left _ this)
        · rintro rfl
          have := hpos _ hmv
          omega
    · rintro ⟨hvn, ⟨hva, hvm⟩, h0⟩
      by_cases hmv : (m, v) ∈ edges
      · right; refine ⟨hmv, ?_⟩
        simp only [hmv, if_true] at h0; omega
      · left; refine ⟨hvm, hvn, hva, ?_⟩
        simpa [hmv] using h0
  · intro p x q hpq
    rcases List.eq_nil_or_concat q with rfl | ⟨q', y, rfl⟩
    · obtain ⟨rfl, hx⟩ := List.append_inj' hpq rfl
      have hx : m = x := by simpa using hx
      subst hx
      refine ⟨fun u hu => (h.ready m).1 hm0 u hu, ?_⟩
      intro v hvn hva hv
      have hvh : v ∈ a :: l := (h.heapMem v).2 ⟨hvn, hva, (h.ready v).2 hv⟩
      exact heapMin_min lt irr ntrans asymm a l v hvh
    · have h2 : acc ++ [m] = (p ++ x :: q') ++ [y] := by simpa using hpq
      obtain ⟨h3, _⟩ := List.append_inj' h2 rfl
      exact h.greedy p x q' h3

theorem kahn_inv {lt : α → α → Bool} (irr : ∀ a, lt a a = false)
    (ntrans : ∀ a b c, lt a b = false → lt b c = false → lt a c = false)
    (asymm : ∀ a b, lt a b = true → lt b a = false)
    {nodes : List α} {edges : List (α × α)} (he : edges.Nodup) (hnod : nodes.Nodup)
    (hn : ∀ e ∈ edges, e.2 ∈ nodes) :
    ∀ (fuel : Nat) (indeg : α → Nat) (heap acc : List α), fuel + acc.length = nodes.length →
      KInv lt nodes edges indeg heap acc →
      let r := kahn lt (fun v => (edges.filter (fun e => e.1 = v)).map Prod.snd) fuel indeg heap acc
      KInv lt nodes edges r.2 [] r.1 := by
  intro fuel
  induction fuel with
  | zero =>
    intro indeg heap acc hf h
    simp only [kahn]
    have hsub : acc ⊆ nodes := h.accSub
    have hperm : acc.Perm nodes :=
      (List.subperm_of_subset h.accNodup hsub).perm_of_length_le (by omega)
    have : heap = [] := by
      apply List.eq_nil_iff_forall_not_mem.2
      intro v hv
      obtain ⟨h1, h2, _⟩ := (h.heapMem v).1 hv
      exact h2 (hperm.mem_iff.2 h1)
    exact this ▸ h
  | succ k ih =>
    intro indeg heap acc hf h
    match heap with
    | [] => simpa only [kahn] using h
    | a :: l =>
      simp only [kahn]
      apply ih
      · simp; omega
      · exact h.step irr ntrans asymm he hn

theorem kahn_init {lt : α → α → Bool} {nodes : List α} {edges : List (α × α)} (hnod : nodes.Nodup) :
    KInv lt nodes edges (fun v => (edges.filter (fun e => e.2 = v)).length)
      (nodes.filter (fun v => (edges.filter (fun e => e.2 = v)).length = 0)) [] := by
  refine ⟨List.nodup_nil, by simp, hnod.filter _, ?_, ?_, ?_⟩
  · intro v; simp
  · intro v; simp
  · intro p m q h; simp at h

/-- Everything that is used about the topological sort. -/
theorem lexTopoSort_spec {lt : α → α → Bool} (irr : ∀ a, lt a a = false)
    (ntrans : ∀ a b c, lt a b = false → lt b c = false → lt a c = false)
    (asymm : ∀ a b, lt a b = true → lt b a = false)
    {nodes : List α} {edges : List (α × α)} (he : edges.Nodup) (hnod : nodes.Nodup)
    (hn : ∀ e ∈ edges, e.2 ∈ nodes) {l : List α} (h : lexTopoSort lt nodes edges = some l) :
    l.Nodup ∧ (∀ v, v ∈ l ↔ v ∈ nodes) ∧ GreedyTopo lt nodes (fun u v => (u, v) ∈ edges) l := by
  have inv := kahn_inv irr ntrans asymm he hnod hn nodes.length _ _ [] (by simp)
    (kahn_init (lt := lt) (edges := edges) hnod)
  simp only [lexTopoSort] at h
  split at h
  · rename_i hall
    cases h
    refine ⟨inv.accNodup, ?_, inv.greedy⟩
    intro v
    refine ⟨inv.accSub v, fun hv => ?_⟩
    by_contra hva
    have h0 := (List.all_eq_true.1 hall) v hv
    have := (inv.heapMem v).2 ⟨hv, hva, by simpa using h0⟩
    simp at this
  · cases h

theorem lexTopoSort_isSome_iff {lt : α → α → Bool} (irr : ∀ a, lt a a = false)
    (ntrans : ∀ a b c, lt a b = false → lt b c = false → lt a c = false)
    (asymm : ∀ a b, lt a b = true → lt b a = false)
    {nodes : List α} {edges : List (α × α)} (he : edges.Nodup) (hnod : nodes.Nodup)
    (hn : ∀ e ∈ edges, e.1 ∈ nodes ∧ e.2 ∈ nodes) :
    (lexTopoSort lt nodes edges).isSome = true ↔
      ∀ v, ¬ Relation.TransGen (fun u v => (u, v) ∈ edges) v v := by
  constructor
  · intro h v hv
    obtain ⟨l, hl⟩ := Option.isSome_iff_exists.1 h
    obtain ⟨hnd, hmem, hg⟩ := lexTopoSort_spec irr ntrans asymm he hnod (fun e h => (hn e h).2) hl
    have key : ∀ a b, Relation.TransGen (fun u v => (u, v) ∈ edges) a b → a ∈ l → b ∈ l →
        l.idxOf a < l.idxOf b := by
      have one : ∀ a b, (a, b) ∈ edges → l.idxOf a < l.idxOf b := by
        intro a b hab
        have hb : b ∈ l := (hmem b).2 (hn _ hab).2
        obtain ⟨p, q, hpq⟩ := List.append_of_mem hb
        have hap := (hg p b q hpq).1 a hab
        have hbp : b ∉ p := by
          intro hbp
          rw [hpq, List.nodup_append] at hnd
          exact hnd.2.2 b hbp b List.mem_cons_self rfl
        rw [hpq, List.idxOf_append_of_mem hap, List.idxOf_append_of_notMem hbp]
        have := List.idxOf_lt_length_of_mem hap
        omega
      intro a b hab ha hb
      clear ha hb
      induction hab with
      | single h => exact one _ _ h
      | tail _ h ih => exact ih.trans (one _ _ h)
    have hvn : v ∈ l := by
      have : v ∈ nodes := by
        cases hv with
        | single h => exact (hn _ h).2
        | tail _ h => exact (hn _ h).2
      exact (hmem v).2 this
    exact lt_irrefl _ (key v v hv hvn hvn)
  · intro hac
    have inv := kahn_inv irr ntrans asymm he hnod (fun e h => (hn e h).2) nodes.length _ _ []
      (by simp) (kahn_init (lt := lt) (edges := edges) hnod)
    simp only [lexTopoSort]
    split
    · rfl
    · rename_i hall
      exfalso
      simp only [List.all_eq_true, decide_eq_true_eq, not_forall] at hall
      obtain ⟨v, hv, hv0⟩ := hall
      set r := kahn lt (fun v => (edges.filter (fun e => e.1 = v)).map Prod.snd) nodes.length
        (fun v => (edges.filter (fun e => e.2 = v)).length)
        (nodes.filter (fun v => (edges.filter (fun e => e.2 = v)).length = 0)) [] with hr
      -- nodes left over
      have hleft : ∀ v ∈ nodes, v ∉ r.1 → ∃ u ∈ nodes, u ∉ r.1 ∧ (u, v) ∈ edges := by
        intro v hv hva
        have hne : r.2 v ≠ 0 := by
          intro h0
          have := (inv.heapMem v).2 ⟨hv, hva, h0⟩
          simp at this
        have := mt (inv.ready v).2 hne
        push Not at this
        obtain ⟨u, hu, hua⟩ := this
        exact ⟨u, (hn _ hu).1, hua, hu⟩
      have hvacc : v ∉ r.1 := by
        intro hva
        obtain ⟨p, q, hpq⟩ := List.append_of_mem hva
        apply hv0
        refine (inv.ready v).2 (fun u hu => ?_)
        have := (inv.greedy p v q hpq).1 u hu
        change u ∈ r.1
        rw [hpq]; exact List.mem_append_left _ this
      -- well-foundedness on the finite type of nodes
      let N := {x : α // x ∈ nodes}
      have : Finite N := by
        classical
        exact Finite.of_injective (β := Fin nodes.length)
          (fun x => ⟨nodes.idxOf x.1, List.idxOf_lt_length_of_mem x.2⟩)
          (fun x y hxy => by
            have := (List.idxOf_inj x.2).1 (by simpa using hxy)
            exact Subtype.ext this)
      let R : N → N → Prop := Relation.TransGen (fun a b => (a.1, b.1) ∈ edges)
      have lift : ∀ a b : N, R a b → Relation.TransGen (fun u v => (u, v) ∈ edges) a.1 b.1 := by
        intro a b hab
        induction hab with
        | single h => exact .single h
        | tail _ h ih => exact ih.tail h
      have : Std.Irrefl R := ⟨fun a h => hac a.1 (lift a a h)⟩
      have : IsTrans N R := ⟨fun a b c => Relation.TransGen.trans⟩
      have wf : WellFounded R := Finite.wellFounded_of_trans_of_irrefl R
      obtain ⟨m, hm, hmin⟩ := wf.has_min {x : N | x.1 ∉ r.1} ⟨⟨v, hv⟩, hvacc⟩
      obtain ⟨u, hun, hua, hum⟩ := hleft m.1 m.2 hm
      exact hmin ⟨u, hun⟩ hua (.single hum)

end Kahn
end Verif.Graph
