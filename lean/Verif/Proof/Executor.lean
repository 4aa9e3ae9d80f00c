import Verif.Proof.Graph
import Mathlib.Data.String.Basic
import Mathlib.Data.Prod.Lex

set_option linter.unusedSectionVars false
set_option linter.unusedSimpArgs false
set_option linter.unusedVariables false

namespace Verif.Graph

variable {n : Nat}

/-- The heap order as a linear order on triples. -/
def heapRank (G : TaskGraph n) (nodes : List (Node n)) (a : Node n) : String ×ₗ ℤ ×ₗ ℕ :=
  toLex ((compareKey G a).1, toLex ((compareKey G a).2, nodes.idxOf a))

theorem heapLt_eq (G : TaskGraph n) (nodes : List (Node n)) (a b : Node n) :
    heapLt G nodes a b = decide (heapRank G nodes a < heapRank G nodes b) := by
  unfold heapLt heapRank
  rw [Bool.eq_iff_iff, decide_eq_true_iff, Prod.Lex.toLex_lt_toLex]
  simp only [Prod.Lex.toLex_lt_toLex]
  generalize (compareKey G a).1 = a1
  generalize (compareKey G b).1 = b1
  generalize (compareKey G a).2 = a2
  generalize (compareKey G b).2 = b2
  rcases lt_trichotomy a1 b1 with h | rfl | h
  · simp [h]
  · rcases lt_trichotomy a2 b2 with h2 | rfl | h2
    · simp [h2]
    · simp
    · simp [h2.not_gt, h2, h2.ne']
  · simp [h.not_gt, h, h.ne']

theorem heapLt_irr (G : TaskGraph n) (nodes : List (Node n)) (a) : heapLt G nodes a a = false := by
  simp [heapLt_eq]

theorem heapLt_ntrans (G : TaskGraph n) (nodes : List (Node n)) (a b c)
    (h1 : heapLt G nodes a b = false) (h2 : heapLt G nodes b c = false) :
    heapLt G nodes a c = false := by
  simp only [heapLt_eq, decide_eq_false_iff_not, not_lt] at *
  exact h2.trans h1

theorem heapLt_asymm (G : TaskGraph n) (nodes : List (Node n)) (a b)
    (h1 : heapLt G nodes a b = true) : heapLt G nodes b a = false := by
  simp only [heapLt_eq, decide_eq_false_iff_not, decide_eq_true_eq, not_lt] at *
  exact h1.le

/-- `a` comes strictly before `b` in the order (group label, descending priority). -/
def KeyLt (a b : String × Int) : Prop := a.1 < b.1 ∨ (a.1 = b.1 ∧ a.2 < b.2)

theorem heapLt_of_keyLt (G : TaskGraph n) (nodes : List (Node n)) (a b)
    (h : KeyLt (compareKey G a) (compareKey G b)) : heapLt G nodes a b = true := by
  rw [heapLt_eq, decide_eq_true_eq]
  unfold heapRank
  rw [Prod.Lex.toLex_lt_toLex, Prod.Lex.toLex_lt_toLex]
  rcases h with h | ⟨h1, h2⟩
  · exact Or.inl h
  · exact Or.inr ⟨h1, Or.inl h2⟩

theorem keyLt_trichotomy (a b : String × Int) : KeyLt a b ∨ a = b ∨ KeyLt b a := by
  unfold KeyLt
  rcases lt_trichotomy a.1 b.1 with h | h | h
  · exact Or.inl (Or.inl h)
  · rcases lt_trichotomy a.2 b.2 with h2 | h2 | h2
    · exact Or.inl (Or.inr ⟨h, h2⟩)
    · exact Or.inr (Or.inl (Prod.ext h h2))
    · exact Or.inr (Or.inr (Or.inr ⟨h.symm, h2⟩))
  · exact Or.inr (Or.inr (Or.inl h))

theorem keyLt_trans {a b c : String × Int} (h1 : KeyLt a b) (h2 : KeyLt b c) : KeyLt a c := by
  unfold KeyLt at *
  rcases h1 with h1 | ⟨h1, h1'⟩ <;> rcases h2 with h2 | ⟨h2, h2'⟩
  · exact Or.inl (h1.trans h2)
  · exact Or.inl (h2 ▸ h1)
  · exact Or.inl (h1 ▸ h2)
  · exact Or.inr ⟨h1.trans h2, h1'.trans h2'⟩

theorem keyLt_irrefl (a : String × Int) : ¬ KeyLt a a := by
  unfold KeyLt; rintro (h | ⟨_, h⟩) <;> exact lt_irrefl _ h

/-! ## The schedule -/

theorem needed_uncached {G : TaskGraph n} {cached : Fin n → Bool} {targets : List (Fin n)} {t : Fin n}
    (h : Needed G cached targets t) : cached t = false := by cases h <;> assumption

theorem mem_nodes_iff (G : TaskGraph n) (cached : Fin n → Bool) (pop : PopOracle n)
    (targets : List (Fin n)) (t : Fin n) :
    some t ∈ nodesOf (edgeTups G cached pop targets) ↔
      t ∈ targets ∨ Needed G cached targets t ∨ ∃ u, Needed G cached targets u ∧ t ∈ G.deps u := by
  rw [mem_nodesOf]
  constructor
  · rintro ⟨e, he, h⟩
    rcases (mem_edgeTups ..).1 he with ⟨d, u, rfl, hu, hd⟩ | ⟨u, hu, rfl⟩
    · rcases h with h | h
      · cases h; exact Or.inr (Or.inr ⟨u, hu, hd⟩)
      · cases h; exact Or.inr (Or.inl hu)
    · rcases h with h | h
      · cases h
      · cases h; exact Or.inl hu
  · rintro (h | h | ⟨u, hu, hd⟩)
    · exact ⟨(none, some t), (mem_edgeTups ..).2 (Or.inr ⟨t, h, rfl⟩), Or.inr rfl⟩
    · cases h with
      | target h _ => exact ⟨(none, some t), (mem_edgeTups ..).2 (Or.inr ⟨t, h, rfl⟩), Or.inr rfl⟩
      | dep hu hd _ => exact ⟨_, (mem_edgeTups ..).2 (Or.inl ⟨_, _, rfl, hu, hd⟩), Or.inl rfl⟩
    · exact ⟨_, (mem_edgeTups ..).2 (Or.inl ⟨_, _, rfl, hu, hd⟩), Or.inl rfl⟩

theorem filterMap_keep_nodup (cached : Fin n → Bool) (l : List (Node n)) (h : l.Nodup) :
    (l.filterMap (keepNode cached)).Nodup := by
  refine h.filterMap ?_
  intro a a' b hb hb'
  cases a with
  | none => simp [keepNode] at hb
  | some a =>
    cases a' with
    | none => simp [keepNode] at hb'
    | some a' =>
      simp only [keepNode] at hb hb'
      split at hb <;> simp at hb
      split at hb' <;> simp at hb'
      rw [hb, hb']

theorem mem_filterMap_keep (cached : Fin n → Bool) (l : List (Node n)) (t : Fin n) :
    t ∈ l.filterMap (keepNode cached) ↔ some t ∈ l ∧ cached t = false := by
  rw [List.mem_filterMap]
  constructor
  · rintro ⟨a, ha, h⟩
    cases a with
    | none => simp [keepNode] at h
    | some a =>
      simp only [keepNode] at h
      split at h
      · cases h
      · cases h; rename_i hf; exact ⟨ha, by simpa using hf⟩
  · rintro ⟨h, hc⟩
    exact ⟨some t, h, by simp [keepNode, hc]⟩

/-- A node list splits at a scheduled task. -/
theorem split_filterMap_keep (cached : Fin n → Bool) (l : List (Node n)) (p q : List (Fin n)) (t : Fin n)
    (h : l.filterMap (keepNode cached) = p ++ t :: q) :
    ∃ P Q, l = P ++ some t :: Q ∧ P.filterMap (keepNode cached) = p ∧
      Q.filterMap (keepNode cached) = q ∧ cached t = false := by
  induction l generalizing p with
  | nil => simp at h
  | cons a l ih =>
    rw [List.filterMap_cons] at h
    cases hk : keepNode cached a with
    | none =>
      rw [hk] at h
      obtain ⟨P, Q, h1, h2, h3, h4⟩ := ih p h
      exact ⟨a :: P, Q, by simp [h1], by simp [List.filterMap_cons, hk, h2], h3, h4⟩
    | some b =>
      rw [hk] at h
      have hab : a = some b ∧ cached b = false := by
        cases a with
        | none => simp [keepNode] at hk
        | some a =>
          simp only [keepNode] at hk
          split at hk
          · cases hk
          · cases hk; rename_i hf; exact ⟨rfl, by simpa using hf⟩
      cases p with
      | nil =>
        simp only [List.nil_append, List.cons.injEq] at h
        obtain ⟨rfl, h⟩ := h
        exact ⟨[], l, by simp [hab.1], rfl, h, hab.2⟩
      | cons c p =>
        simp only [List.cons_append, List.cons.injEq] at h
        obtain ⟨rfl, h⟩ := h
        obtain ⟨P, Q, h1, h2, h3, h4⟩ := ih p h
        exact ⟨a :: P, Q, by simp [h1], by simp [List.filterMap_cons, hk, h2], h3, h4⟩

/-- What is known of a schedule. -/
structure IsSchedule (G : TaskGraph n) (cached : Fin n → Bool) (targets : List (Fin n))
    (s : List (Fin n)) : Prop where
  nodup : s.Nodup
  mem : ∀ t, t ∈ s ↔ Needed G cached targets t
  ordered : ∀ p t q, s = p ++ t :: q → ∀ d ∈ G.deps t, d ∈ p ∨ cached d = true

theorem sorted_data (G : TaskGraph n) (cached : Fin n → Bool) (pop : PopOracle n)
    (targets : List (Fin n)) (l : List (Node n))
    (h : lexTopoSort (heapLt G (nodesOf (edgeTups G cached pop targets)))
      (nodesOf (edgeTups G cached pop targets)) (edgesOf (edgeTups G cached pop targets)) = some l) :
    l.Nodup ∧ (∀ v, v ∈ l ↔ v ∈ nodesOf (edgeTups G cached pop targets)) ∧
      GreedyTopo (heapLt G (nodesOf (edgeTups G cached pop targets)))
        (nodesOf (edgeTups G cached pop targets))
        (fun u v => (u, v) ∈ edgeTups G cached pop targets) l := by
  have := lexTopoSort_spec (heapLt_irr G _) (heapLt_ntrans G _) (heapLt_asymm G _)
    (nodup_edgesOf (edgeTups G cached pop targets)) (nodup_nodesOf _)
    (fun e he => (mem_nodesOf _ _).2 ⟨e, (mem_edgesOf _ _).1 he, Or.inr rfl⟩) h
  refine ⟨this.1, this.2.1, ?_⟩
  simpa only [mem_edgesOf] using this.2.2

theorem buildSchedule_spec (G : TaskGraph n) (cached : Fin n → Bool) (pop : PopOracle n)
    (targets : List (Fin n)) (s : List (Fin n)) (h : buildSchedule G cached pop targets = some s) :
    IsSchedule G cached targets s := by
  unfold buildSchedule at h
  split at h
  · rename_i he
    have : targets = [] := by simpa using he
    subst this
    cases h
    refine ⟨List.nodup_nil, ?_, by simp⟩
    intro t
    simp only [List.not_mem_nil, false_iff]
    intro hn
    induction hn with
    | target h _ => simp at h
    | dep _ _ _ ih => exact ih
  · simp only [Option.map_eq_some_iff] at h
    obtain ⟨l, hl, rfl⟩ := h
    obtain ⟨hnd, hmem, hg⟩ := sorted_data G cached pop targets l hl
    refine ⟨filterMap_keep_nodup _ _ hnd, ?_, ?_⟩
    · intro t
      rw [mem_filterMap_keep, hmem, mem_nodes_iff]
      constructor
      · rintro ⟨h | h | ⟨u, hu, hd⟩, hc⟩
        · exact .target h hc
        · exact h
        · exact hu.dep hd hc
      · intro h
        exact ⟨Or.inr (Or.inl h), needed_uncached h⟩
    · intro p t q hpq d hd
      obtain ⟨P, Q, h1, h2, h3, h4⟩ := split_filterMap_keep cached l p q t hpq
      have htn : Needed G cached targets t := by
        have : some t ∈ l := by rw [h1]; simp
        rcases (mem_nodes_iff G cached pop targets t).1 ((hmem _).1 this) with h | h | ⟨u, hu, hd⟩
        · exact .target h h4
        · exact h
        · exact hu.dep hd h4
      have := (hg P (some t) Q h1).1 (some d) ((mem_edgeTups ..).2 (Or.inl ⟨d, t, rfl, htn, hd⟩))
      cases hc : cached d with
      | true => exact Or.inr rfl
      | false =>
        left
        rw [← h2, mem_filterMap_keep]
        exact ⟨this, hc⟩

theorem transGen_some {G : TaskGraph n} {cached : Fin n → Bool} {pop : PopOracle n}
    {targets : List (Fin n)} {a b : Node n}
    (h : Relation.TransGen (fun u v => (u, v) ∈ edgeTups G cached pop targets) a b) :
    ∃ t, b = some t ∧ (a = none ∨ ∃ d, a = some d ∧
      Relation.TransGen (NeedsDep G cached targets) d t) := by
  induction h with
  | single h =>
    rcases (mem_edgeTups ..).1 h with ⟨d, u, he, hu, hd⟩ | ⟨u, hu, he⟩
    · cases he; exact ⟨u, rfl, Or.inr ⟨d, rfl, .single ⟨hu, hd⟩⟩⟩
    · cases he; exact ⟨u, rfl, Or.inl rfl⟩
  | tail _ h ih =>
    obtain ⟨t, rfl, ih⟩ := ih
    rcases (mem_edgeTups ..).1 h with ⟨d, u, he, hu, hd⟩ | ⟨u, hu, he⟩
    · cases he
      refine ⟨u, rfl, ?_⟩
      rcases ih with ih | ⟨d', rfl, ih⟩
      · exact Or.inl ih
      · exact Or.inr ⟨d', rfl, ih.tail ⟨hu, hd⟩⟩
    · cases he

theorem buildSchedule_isSome_iff (G : TaskGraph n) (cached : Fin n → Bool) (pop : PopOracle n)
    (targets : List (Fin n)) :
    (buildSchedule G cached pop targets).isSome = true ↔
      ∀ t, ¬ Relation.TransGen (NeedsDep G cached targets) t t := by
  unfold buildSchedule
  split
  · rename_i he
    have : targets = [] := by simpa using he
    subst this
    simp only [Option.isSome_some, true_iff]
    intro t ht
    have : ∀ u, ¬ Needed G cached [] u := by
      intro u hu
      induction hu with
      | target h _ => simp at h
      | dep _ _ _ ih => exact ih
    cases ht with
    | single h => exact this _ h.1
    | tail _ h => exact this _ h.1
  · simp only [Option.isSome_map]
    rw [lexTopoSort_isSome_iff (heapLt_irr G _) (heapLt_ntrans G _) (heapLt_asymm G _)
      (nodup_edgesOf (edgeTups G cached pop targets)) (nodup_nodesOf _)
      (fun e he => ⟨(mem_nodesOf _ _).2 ⟨e, (mem_edgesOf _ _).1 he, Or.inl rfl⟩,
        (mem_nodesOf _ _).2 ⟨e, (mem_edgesOf _ _).1 he, Or.inr rfl⟩⟩)]
    simp only [mem_edgesOf]
    constructor
    · intro h t ht
      apply h (some t)
      have : ∀ a b, Relation.TransGen (NeedsDep G cached targets) a b →
          Relation.TransGen (fun u v => (u, v) ∈ edgeTups G cached pop targets) (some a) (some b) := by
        intro a b hab
        induction hab with
        | single h => exact .single ((mem_edgeTups ..).2 (Or.inl ⟨_, _, rfl, h.1, h.2⟩))
        | tail _ h ih => exact ih.tail ((mem_edgeTups ..).2 (Or.inl ⟨_, _, rfl, h.1, h.2⟩))
      exact this t t ht
    · intro h v hv
      obtain ⟨t, rfl, hor⟩ := transGen_some hv
      rcases hor with hor | ⟨d, hd, ht⟩
      · cases hor
      · cases hd; exact h t ht

/-! ## Last use -/

theorem setIfAbsent_apply (d : Fin n → Option Nat) (k : Fin n) (v : Nat) (x : Fin n) :
    setIfAbsent d k v x = if x = k ∧ d x = none then some v else d x := by
  unfold setIfAbsent
  by_cases h : x = k
  · subst h
    cases hd : d x <;> simp [hd]
  · cases hd : d k <;> simp [hd, h]

theorem foldl_setIfAbsent (l : List (Fin n)) (d : Fin n → Option Nat) (v : Nat) (x : Fin n) :
    l.foldl (fun d y => setIfAbsent d y v) d x = if x ∈ l ∧ d x = none then some v else d x := by
  induction l generalizing d with
  | nil => simp
  | cons a l ih =>
    simp only [List.foldl_cons, ih, setIfAbsent_apply, List.mem_cons]
    by_cases h1 : x = a <;> by_cases h2 : x ∈ l <;> cases h3 : d x <;> simp [h1, h2, h3]

theorem lastUseStep_apply (G : TaskGraph n) (d : Fin n → Option Nat) (it : Fin n × Nat) (x : Fin n) :
    lastUseStep G d it x =
      if (x ∈ G.deps it.1 ∨ x = it.1) ∧ d x = none then some it.2 else d x := by
  unfold lastUseStep
  rw [setIfAbsent_apply, foldl_setIfAbsent]
  by_cases h1 : x = it.1 <;> by_cases h2 : x ∈ G.deps it.1 <;> cases h3 : d x <;> simp [h1, h2, h3]

/-- position `i` of the schedule mentions `k` -/
def Mentions (G : TaskGraph n) (s : List (Fin n)) (k : Fin n) (i : Nat) : Prop :=
  ∃ t, s[i]? = some t ∧ (k ∈ G.deps t ∨ k = t)

theorem lastUse_fold (G : TaskGraph n) (k : Fin n) (l : List (Fin n × Nat)) :
    (l.foldr (fun it d => lastUseStep G d it) (fun _ => none)) k =
      (l.reverse.find? (fun it => decide (k ∈ G.deps it.1 ∨ k = it.1))).map Prod.snd := by
  induction l with
  | nil => rfl
  | cons a l ih =>
    rw [List.foldr_cons, lastUseStep_apply, ih, List.reverse_cons, List.find?_append]
    cases hf : l.reverse.find? (fun it => decide (k ∈ G.deps it.1 ∨ k = it.1)) with
    | none =>
      simp only [Option.map_none, and_true, Option.none_or]
      by_cases h : k ∈ G.deps a.1 ∨ k = a.1 <;> simp [h, List.find?_cons]
    | some v => simp

theorem lastUse_none (G : TaskGraph n) (cached : Fin n → Bool) (s : List (Fin n)) (k : Fin n) (i : Nat)
    (h : lastUseIndex G cached s k = some i) :
    (Mentions G s k i ∧ ∀ j, i < j → ¬ Mentions G s k j) ∨
      (cached k = true ∧ i = s.length + 1 ∧ ∀ j, ¬ Mentions G s k j) := by
  unfold lastUseIndex at h
  simp only [List.foldl_reverse] at h
  rw [lastUse_fold] at h
  have hz : ∀ (p : Fin n × Nat), p ∈ s.zipIdx ↔ s[p.2]? = some p.1 := by
    rintro ⟨a, b⟩; exact List.mk_mem_zipIdx_iff_getElem?
  cases hf : s.zipIdx.reverse.find? (fun it => decide (k ∈ G.deps it.1 ∨ k = it.1)) with
  | none =>
    rw [hf] at h
    simp only [Option.map_none] at h
    split at h
    · cases h
      refine Or.inr ⟨‹_›, rfl, ?_⟩
      rintro j ⟨t, ht, hk⟩
      have := List.find?_eq_none.1 hf (t, j) (List.mem_reverse.2 ((hz (t, j)).2 ht))
      simp only [decide_eq_true_eq] at this
      exact this hk
    · cases h
  | some v =>
    rw [hf] at h
    simp only [Option.map_some, Option.some.injEq] at h
    subst h
    left
    rw [List.find?_eq_some_iff_append] at hf
    obtain ⟨hv, as, bs, hab, has⟩ := hf
    have hab' : s.zipIdx = bs.reverse ++ v :: as.reverse := by
      have := congrArg List.reverse hab
      simpa using this
    have hvm : v ∈ s.zipIdx := by rw [hab']; simp
    refine ⟨⟨v.1, (hz v).1 hvm, by simpa using hv⟩, ?_⟩
    rintro j hj ⟨t, ht, hk⟩
    have hm : (t, j) ∈ s.zipIdx := (hz (t, j)).2 ht
    have hidx : ∀ m (x : Fin n × Nat), s.zipIdx[m]? = some x → x.2 = m := by
      intro m x hx
      rw [List.getElem?_zipIdx] at hx
      cases hs : s[m]? with
      | none => simp [hs] at hx
      | some y => simp [hs] at hx; rw [← hx]
    have hvidx : v.2 = bs.length := by
      apply hidx
      rw [hab', List.getElem?_append_right (by simp)]
      simp
    -- (t, j) lies after v
    have : (t, j) ∈ as.reverse := by
      obtain ⟨m, hm⟩ := List.getElem?_of_mem hm
      have hmj := hidx _ _ hm
      simp only at hmj
      rw [hab', List.getElem?_append_right (by simp; omega)] at hm
      simp only [List.length_reverse] at hm
      obtain ⟨c, hc⟩ : ∃ c, m - bs.length = c + 1 := ⟨m - bs.length - 1, by omega⟩
      rw [hc, List.getElem?_cons_succ] at hm
      exact List.mem_of_getElem? hm
    have := has (t, j) (by simpa using this)
    simp only [Bool.not_eq_true', decide_eq_false_iff_not] at this
    exact this hk

theorem lastUse_isSome (G : TaskGraph n) (cached : Fin n → Bool) (s : List (Fin n)) (k : Fin n)
    (h : k ∈ s ∨ cached k = true) : (lastUseIndex G cached s k).isSome = true := by
  unfold lastUseIndex
  simp only [List.foldl_reverse]
  rw [lastUse_fold]
  cases hf : s.zipIdx.reverse.find? (fun it => decide (k ∈ G.deps it.1 ∨ k = it.1)) with
  | some v => simp
  | none =>
    simp only [Option.map_none]
    rcases h with h | h
    · exfalso
      obtain ⟨i, hi⟩ := List.getElem?_of_mem h
      have := List.find?_eq_none.1 hf (k, i)
        (List.mem_reverse.2 (List.mk_mem_zipIdx_iff_getElem?.2 hi))
      simp at this
    · simp [h]

/-! ## The run loop -/

section Run
variable {V E : Type}

theorem Eval.det {G : TaskGraph n} {exec : Fin n → List (String × V) → Except E V}
    {cached : Fin n → Option V} {t : Fin n} {v w : V}
    (h1 : Eval G exec cached t v) (h2 : Eval G exec cached t w) : v = w := by
  induction h1 generalizing w with
  | cached h =>
    cases h2 with
    | cached h' => rw [h] at h'; cases h'; rfl
    | exec _ h' _ _ => rw [h] at h'; cases h'
  | @exec t v vals hc hd he ih =>
    cases h2 with
    | cached h' => rw [hc] at h'; cases h'
    | exec vals' _ hd' he' =>
      have : (G.args t).map (fun a => (a.1, vals a.2)) = (G.args t).map (fun a => (a.1, vals' a.2)) := by
        apply List.map_congr_left
        intro a ha
        have had : a.2 ∈ G.deps t := List.mem_map.2 ⟨a, ha, rfl⟩
        rw [ih a.2 had (hd' a.2 had)]
      rw [this, he'] at he
      cases he; rfl

theorem gatherArgs_ok (values : Fin n → Option V) (l : List (String × Fin n)) (vs : List (String × V))
    (h : gatherArgs values l = .ok vs) (dflt : Fin n → V) :
    vs = l.map (fun a => (a.1, (values a.2).getD (dflt a.2))) ∧ ∀ a ∈ l, (values a.2).isSome = true := by
  induction l generalizing vs with
  | nil => simp [gatherArgs] at h; simp [h]
  | cons a l ih =>
    obtain ⟨nm, d⟩ := a
    simp only [gatherArgs] at h
    split at h
    · cases h
    · rename_i v hv
      split at h
      · rename_i vs' hvs
        cases h
        obtain ⟨h1, h2⟩ := ih vs' hvs
        refine ⟨by simp [hv, ← h1], ?_⟩
        intro a ha
        rcases List.mem_cons.1 ha with rfl | ha
        · simp [hv]
        · exact h2 a ha
      · cases h

theorem gatherArgs_error (values : Fin n → Option V) (l : List (String × Fin n)) (e : String)
    (h : gatherArgs values l = .error e) : ∃ a ∈ l, values a.2 = none := by
  induction l with
  | nil => simp [gatherArgs] at h
  | cons a l ih =>
    obtain ⟨nm, d⟩ := a
    simp only [gatherArgs] at h
    split at h
    · exact ⟨_, List.mem_cons_self, ‹_›⟩
    · split at h
      · cases h
      · rename_i e' he
        obtain ⟨a, ha, h0⟩ := ih (by rw [he]; exact h)
        exact ⟨a, List.mem_cons_of_mem _ ha, h0⟩

theorem execs_append (a b : List (Event n V)) : execs (a ++ b) = execs a ++ execs b := by
  induction a with
  | nil => rfl
  | cons x l ih => cases x <;> simp [execs, ih]

theorem yields_append (a b : List (Event n V)) : yields (a ++ b) = yields a ++ yields b := by
  induction a with
  | nil => rfl
  | cons x l ih => cases x <;> simp [yields, ih]

/-- Invariant of the run loop when `p` has been executed and `rest` remains. -/
structure RInv (G : TaskGraph n) (exec : Fin n → List (String × V) → Except E V)
    (cached : Fin n → Option V) (p rest : List (Fin n)) (values : Fin n → Option V) : Prop where
  sound : ∀ k v, values k = some v → Eval G exec cached k v
  dom : ∀ k, (values k).isSome = true → k ∈ p ∨ (cached k).isSome = true
  avail : ∀ k, (k ∈ p ∨ (cached k).isSome = true) → (∃ t ∈ rest, k ∈ G.deps t) →
    (values k).isSome = true

/-- Everything that is claimed about the rest of a run. -/
structure RGood (G : TaskGraph n) (exec : Fin n → List (String × V) → Except E V)
    (cached : Fin n → Option V) (targets s p rest : List (Fin n))
    (r : List (Event n V) × Outcome n E) : Prop where
  /-- the run stops only at the end or because a task raises on its true arguments -/
  outcome : r.2 = .finished ∧ execs r.1 = rest ∨
    ∃ t e, ∃ vals : Fin n → V, t ∈ rest ∧ r.2 = .raised t e ∧ (∀ d ∈ G.deps t, Eval G exec cached d (vals d)) ∧
      exec t ((G.args t).map fun a => (a.1, vals a.2)) = .error e
  execs_prefix : execs r.1 <+: rest
  yields_eq : r.2 = .finished → (yields r.1).map Prod.fst = rest.filter (· ∈ targets)
  yields_prefix : (yields r.1).map Prod.fst <+: rest.filter (· ∈ targets)
  yields_eval : ∀ t v, (t, v) ∈ yields r.1 → Eval G exec cached t v
  args_eval : ∀ t as, Event.exec t as ∈ r.1 → ∃ vals : Fin n → V,
    (∀ d ∈ G.deps t, Eval G exec cached d (vals d)) ∧ as = (G.args t).map fun a => (a.1, vals a.2)
  retention : ∀ pre post keys, r.1 = pre ++ Event.held keys :: post → ∀ k, keys k = true →
    (∃ t ∈ rest, t ∉ execs pre ∧ k ∈ G.deps t) ∨
      ((cached k).isSome = true ∧ ∀ t ∈ s, k ∉ G.deps t)
  held_after : ∀ pre post t as, r.1 = pre ++ Event.exec t as :: post →
    (post = [] ∧ ∃ e, r.2 = .raised t e) ∨
      ∃ mid keys post', post = mid ++ Event.held keys :: post' ∧ execs mid = []

theorem runLoop_good [Nonempty V] (G : TaskGraph n)
    (exec : Fin n → List (String × V) → Except E V)
    (cached : Fin n → Option V) (targets s : List (Fin n))
    (hs : IsSchedule G (fun k => (cached k).isSome) targets s) :
    ∀ (rest p : List (Fin n)) (values : Fin n → Option V), s = p ++ rest →
      RInv G exec cached p rest values →
      RGood G exec cached targets s p rest
        (runLoop G exec targets (lastUseIndex G (fun k => (cached k).isSome) s) p.length rest values) := by
  intro rest
  induction rest with
  | nil =>
    intro p values hsp inv
    simp only [runLoop]
    refine ⟨Or.inl ⟨rfl, rfl⟩, by simp [execs], by simp [yields], by simp [yields], by simp [yields],
      by simp, by simp, by simp⟩
  | cons t rest ih =>
    intro p values hsp inv
    have hord := hs.ordered p t rest hsp
    have havail : ∀ d ∈ G.deps t, (values d).isSome = true :=
      fun d hd => inv.avail d (hord d hd) ⟨t, List.mem_cons_self, hd⟩
    have htn : Needed G (fun k => (cached k).isSome) targets t :=
      (hs.mem t).1 (by rw [hsp]; simp)
    have htc : cached t = none := by
      have := needed_uncached htn
      simpa using this
    have hnd := hs.nodup
    rw [hsp] at hnd
    have htp : t ∉ p := fun h => (List.nodup_append.1 hnd).2.2 t h t List.mem_cons_self rfl
    have htrest : t ∉ rest := (List.nodup_cons.1 (List.nodup_append.1 hnd).2.1).1
    have hrestc : ∀ u ∈ rest, cached u = none := by
      intro u hu
      have := needed_uncached ((hs.mem u).1 (by rw [hsp]; simp [hu]))
      simpa using this
    have hrestp : ∀ u ∈ rest, u ∉ p := fun u hu h =>
      (List.nodup_append.1 hnd).2.2 u h u (List.mem_cons_of_mem _ hu) rfl
    have hpos : ∀ i u, s[i]? = some u → p.length < i → u ∈ rest := by
      intro i u hi hpi
      rw [hsp, List.getElem?_append_right (by omega)] at hi
      obtain ⟨c, hc⟩ : ∃ c, i - p.length = c + 1 := ⟨i - p.length - 1, by omega⟩
      rw [hc, List.getElem?_cons_succ] at hi
      exact List.mem_of_getElem? hi
    have hpos' : ∀ u ∈ rest, ∃ i, p.length < i ∧ s[i]? = some u := by
      intro u hu
      obtain ⟨i, hi⟩ := List.getElem?_of_mem hu
      refine ⟨p.length + (i + 1), by omega, ?_⟩
      rw [hsp, List.getElem?_append_right (by omega), Nat.add_sub_cancel_left, List.getElem?_cons_succ]
      exact hi
    simp only [runLoop]
    cases hg : gatherArgs values (G.args t) with
    | error e =>
      exfalso
      obtain ⟨a, ha, h0⟩ := gatherArgs_error _ _ _ hg
      have := havail a.2 (List.mem_map.2 ⟨a, ha, rfl⟩)
      rw [h0] at this; cases this
    | ok arguments =>
      simp only
      obtain ⟨v0⟩ := ‹Nonempty V›
      obtain ⟨vals, hvE, hvA⟩ : ∃ vals : Fin n → V, (∀ d ∈ G.deps t, Eval G exec cached d (vals d)) ∧
          arguments = (G.args t).map (fun a => (a.1, vals a.2)) := by
        refine ⟨fun d => (values d).getD v0, ?_, (gatherArgs_ok _ _ _ hg (fun _ => v0)).1⟩
        intro d hd
        obtain ⟨v, hv⟩ := Option.isSome_iff_exists.1 (havail d hd)
        simp only [hv, Option.getD_some]
        exact inv.sound d v hv
      cases hx : exec t arguments with
      | error e =>
        simp only
        refine ⟨Or.inr ⟨t, e, vals, List.mem_cons_self, rfl, hvE, by rw [← hvA]; exact hx⟩,
          ?_, ?_, ?_, ?_, ?_, ?_, ?_⟩
        · simp [execs]
        · intro h; cases h
        · simp [yields]
        · simp [yields]
        · intro t' as h
          simp only [List.mem_singleton, Event.exec.injEq] at h
          obtain ⟨rfl, rfl⟩ := h
          exact ⟨vals, hvE, hvA⟩
        · intro pre post keys h
          cases pre with
          | nil => simp at h
          | cons a pre => simp at h
        · intro pre post u as h
          left
          cases pre with
          | nil =>
            simp only [List.nil_append, List.cons.injEq, Event.exec.injEq] at h
            obtain ⟨⟨rfl, rfl⟩, rfl⟩ := h
            exact ⟨rfl, e, rfl⟩
          | cons a pre => simp at h
      | ok res =>
        simp only
        have hEt : Eval G exec cached t res := .exec vals htc hvE (by rw [← hvA]; exact hx)
        set last := lastUseIndex G (fun k => (cached k).isSome) s with hlast
        set values' := Function.update values t (some res) with hvalues'
        have hdom' : ∀ k, (values' k).isSome = true → k ∈ p ∨ k = t ∨ (cached k).isSome = true := by
          intro k hk
          by_cases hkt : k = t
          · exact Or.inr (Or.inl hkt)
          · have : values' k = values k := by simp [hvalues', hkt]
            rw [this] at hk
            rcases inv.dom k hk with h | h
            · exact Or.inl h
            · exact Or.inr (Or.inr h)
        have hev : evict last p.length values' =
            some (fun k => if (last k).all (fun l => decide (p.length ≥ l)) then none else values' k) := by
          unfold evict
          rw [if_pos]
          rw [List.all_eq_true]
          intro k _
          cases hk : values' k with
          | none => simp
          | some v =>
            have := hdom' k (by simp [hk])
            simp only [Option.isNone_some, Bool.false_or]
            apply lastUse_isSome
            rcases this with h | h | h
            · left; rw [hsp]; simp [h]
            · left; rw [hsp]; simp [h]
            · exact Or.inr h
        rw [hev]
        simp only
        set values'' : Fin n → Option V :=
          fun k => if (last k).all (fun l => decide (p.length ≥ l)) then none else values' k with hvalues''
        have hsub : ∀ k v, values'' k = some v → values' k = some v ∧ ∃ l, last k = some l ∧ p.length < l := by
          intro k v hk
          simp only [hvalues''] at hk
          split at hk
          · cases hk
          · rename_i hcond
            refine ⟨hk, ?_⟩
            cases hl : last k with
            | none => simp [hl] at hcond
            | some l => exact ⟨l, rfl, by simpa [hl] using hcond⟩
        have inv' : RInv G exec cached (p ++ [t]) rest values'' := by
          refine ⟨?_, ?_, ?_⟩
          · intro k v hk
            have hk := (hsub k v hk).1
            by_cases hkt : k = t
            · subst hkt
              have : values' k = some res := by simp [hvalues']
              rw [this] at hk; cases hk; exact hEt
            · have : values' k = values k := by simp [hvalues', hkt]
              rw [this] at hk
              exact inv.sound k v hk
          · intro k hk
            obtain ⟨v, hv⟩ := Option.isSome_iff_exists.1 hk
            rcases hdom' k (by rw [(hsub k v hv).1]; rfl) with h | h | h
            · simp [h]
            · simp [h]
            · exact Or.inr h
          · rintro k hk ⟨u, hu, hku⟩
            have hv' : (values' k).isSome = true := by
              by_cases hkt : k = t
              · simp [hvalues', hkt]
              · have : values' k = values k := by simp [hvalues', hkt]
                rw [this]
                apply inv.avail k
                · rcases hk with h | h
                  · left
                    rcases List.mem_append.1 h with h | h
                    · exact h
                    · exact absurd (List.mem_singleton.1 h) hkt
                  · exact Or.inr h
                · exact ⟨u, List.mem_cons_of_mem _ hu, hku⟩
            obtain ⟨j, hj, hju⟩ := hpos' u hu
            have hsome : (last k).isSome = true := by
              apply lastUse_isSome
              rcases hk with h | h
              · left; rw [hsp]
                rcases List.mem_append.1 h with h | h
                · simp [h]
                · simp [List.mem_singleton.1 h]
              · exact Or.inr h
            obtain ⟨l, hl⟩ := Option.isSome_iff_exists.1 hsome
            have hlt : p.length < l := by
              rcases lastUse_none G _ s k l hl with ⟨_, h2⟩ | ⟨_, _, h3⟩
              · by_contra hle
                exact h2 j (by omega) ⟨u, hju, Or.inl hku⟩
              · exact absurd ⟨u, hju, Or.inl hku⟩ (h3 j)
            simp only [hvalues'', hl]
            rw [if_neg (by simpa using hlt)]
            exact hv'
        have hret : ∀ k, (values'' k).isSome = true → (∃ u ∈ rest, k ∈ G.deps u) ∨
            ((cached k).isSome = true ∧ ∀ u ∈ s, k ∉ G.deps u) := by
          intro k hk
          obtain ⟨v, hv⟩ := Option.isSome_iff_exists.1 hk
          obtain ⟨hv', l, hl, hlt⟩ := hsub k v hv
          rcases lastUse_none G _ s k l hl with ⟨⟨u, hu, hku⟩, _⟩ | ⟨hc, _, h3⟩
          · have hur := hpos l u hu hlt
            rcases hku with hku | rfl
            · exact Or.inl ⟨u, hur, hku⟩
            · exfalso
              rcases hdom' k (by rw [hv']; rfl) with h | h | h
              · exact hrestp k hur h
              · exact htrest (h ▸ hur)
              · rw [hrestc k hur] at h; cases h
          · right
            refine ⟨hc, fun u hu hku => ?_⟩
            obtain ⟨i, hi⟩ := List.getElem?_of_mem hu
            exact h3 i ⟨u, hi, Or.inl hku⟩
        have g := ih (p ++ [t]) values'' (by simp [hsp]) inv'
        rw [List.length_append, List.length_singleton] at g
        set r := runLoop G exec targets last (p.length + 1) rest values'' with hr
        have hex : ∀ X : List (Event n V), execs
            ((if t ∈ targets then [Event.yielded t res] else []) ++ X) = execs X := by
          intro X; split <;> simp [execs]
        refine ⟨?_, ?_, ?_, ?_, ?_, ?_, ?_, ?_⟩
        · rcases g.outcome with ⟨h1, h2⟩ | ⟨u, e, vs, h1, h2, h3, h4⟩
          · left
            refine ⟨h1, ?_⟩
            simp [execs, hex, h2]
          · right
            exact ⟨u, e, vs, List.mem_cons_of_mem _ h1, h2, h3, h4⟩
        · simpa [execs, hex] using g.execs_prefix
        · intro h
          have := g.yields_eq h
          by_cases htt : t ∈ targets <;> simp [yields, htt, this]
        · have := g.yields_prefix
          by_cases htt : t ∈ targets <;> simpa [yields, htt] using this
        · intro u v huv
          by_cases htt : t ∈ targets
          · simp only [htt, if_true, List.cons_append, List.nil_append, yields, List.mem_cons,
              Prod.mk.injEq] at huv
            rcases huv with ⟨rfl, rfl⟩ | h
            · exact hEt
            · exact g.yields_eval u v h
          · simp only [htt, if_false, List.cons_append, List.nil_append, yields] at huv
            exact g.yields_eval u v huv
        · intro u as hu
          have : u = t ∧ as = arguments ∨ Event.exec u as ∈ r.1 := by
            by_cases htt : t ∈ targets <;> simpa [htt] using hu
          rcases this with ⟨rfl, rfl⟩ | h
          · exact ⟨vals, hvE, hvA⟩
          · exact g.args_eval u as h
        · have main : ∀ pre post keys, Event.held (fun k => (values'' k).isSome) :: r.1 =
              pre ++ Event.held keys :: post → ∀ k, keys k = true →
              (∃ u ∈ rest, u ∉ execs pre ∧ k ∈ G.deps u) ∨
                ((cached k).isSome = true ∧ ∀ u ∈ s, k ∉ G.deps u) := by
            intro pre post keys h k hk
            cases pre with
            | nil =>
              simp only [List.nil_append, List.cons.injEq, Event.held.injEq] at h
              obtain ⟨rfl, _⟩ := h
              rcases hret k hk with ⟨u, hu, hku⟩ | h
              · exact Or.inl ⟨u, hu, by simp [execs], hku⟩
              · exact Or.inr h
            | cons a pre =>
              simp only [List.cons_append, List.cons.injEq] at h
              obtain ⟨rfl, h⟩ := h
              rcases g.retention pre post keys h k hk with ⟨u, hu, hup, hku⟩ | h
              · exact Or.inl ⟨u, hu, by simpa [execs] using hup, hku⟩
              · exact Or.inr h
          have fin : ∀ (pre : List (Event n V)) k, ((∃ u ∈ rest, u ∉ execs pre ∧ k ∈ G.deps u) ∨
                ((cached k).isSome = true ∧ ∀ u ∈ s, k ∉ G.deps u)) →
              ((∃ u ∈ t :: rest, u ∉ t :: execs pre ∧ k ∈ G.deps u) ∨
                ((cached k).isSome = true ∧ ∀ u ∈ s, k ∉ G.deps u)) := by
            rintro pre k (⟨u, hu, hup, hku⟩ | h)
            · left
              refine ⟨u, List.mem_cons_of_mem _ hu, ?_, hku⟩
              simp only [List.mem_cons, not_or]
              exact ⟨fun h => htrest (h ▸ hu), hup⟩
            · exact Or.inr h
          intro pre post keys h k hk
          cases pre with
          | nil => simp at h
          | cons a pre =>
            simp only [List.cons_append, List.cons.injEq] at h
            obtain ⟨rfl, h⟩ := h
            by_cases htt : t ∈ targets
            · simp only [htt, if_true, List.cons_append, List.nil_append] at h
              cases pre with
              | nil => simp at h
              | cons b pre =>
                simp only [List.cons_append, List.cons.injEq] at h
                obtain ⟨rfl, h⟩ := h
                have := fin pre k (main pre post keys h k hk)
                simpa [execs] using this
            · simp only [htt, if_false, List.nil_append] at h
              have := fin pre k (main pre post keys h k hk)
              simpa [execs] using this
        · intro pre post u as h
          have aux : ∀ pre, Event.held (fun k => (values'' k).isSome) :: r.1 =
              pre ++ Event.exec u as :: post → (post = [] ∧ ∃ e, r.2 = .raised u e) ∨
                ∃ mid keys post', post = mid ++ Event.held keys :: post' ∧ execs mid = [] := by
            intro pre h
            cases pre with
            | nil => simp at h
            | cons b pre =>
              simp only [List.cons_append, List.cons.injEq] at h
              exact g.held_after pre post u as h.2
          cases pre with
          | nil =>
            simp only [List.cons_append, List.nil_append, List.cons.injEq, Event.exec.injEq] at h
            obtain ⟨_, rfl⟩ := h
            right
            refine ⟨_, _, _, rfl, ?_⟩
            split <;> rfl
          | cons a pre =>
            simp only [List.cons_append, List.cons.injEq] at h
            obtain ⟨rfl, h⟩ := h
            by_cases htt : t ∈ targets
            · simp only [htt, if_true, List.cons_append, List.nil_append] at h
              cases pre with
              | nil => simp at h
              | cons b pre =>
                simp only [List.cons_append, List.cons.injEq] at h
                exact aux pre h.2
            · simp only [htt, if_false, List.nil_append] at h
              exact aux pre h

end Run
end Verif.Graph
