import Verif.Proof.Names
import Mathlib.Data.List.Nodup
import Mathlib.Data.List.Induction

/-! # Invariant of the writer -/

namespace Verif.Writer

section Dict
variable {α β : Type} [DecidableEq α]

theorem dictSet_new (d : List (α × β)) (k : α) (v : β) (h : k ∉ d.map Prod.fst) :
    dictSet d k v = d ++ [(k, v)] := by
  unfold dictSet
  rw [if_neg]
  simpa using h

theorem dictGet_mem {d : List (α × β)} {k : α} {v : β} (h : dictGet d k = some v) : (k, v) ∈ d := by
  unfold dictGet at h
  obtain ⟨e, he, rfl⟩ := Option.map_eq_some_iff.1 h
  have h1 := List.find?_some he
  have h2 := List.mem_of_find?_eq_some he
  simp only [decide_eq_true_eq] at h1
  rw [← h1]; exact h2

theorem dictGet_isSome {d : List (α × β)} {k : α} : (dictGet d k).isSome = true ↔ k ∈ d.map Prod.fst := by
  unfold dictGet
  simp only [Option.isSome_map, List.find?_isSome, decide_eq_true_eq, List.mem_map]

theorem dictGet_of_mem {d : List (α × β)} {k : α} {v : β} (hn : (d.map Prod.fst).Nodup) (h : (k, v) ∈ d) :
    dictGet d k = some v := by
  have h1 : (dictGet d k).isSome = true := dictGet_isSome.2 (List.mem_map.2 ⟨_, h, rfl⟩)
  obtain ⟨w, hw⟩ := Option.isSome_iff_exists.1 h1
  have h2 := dictGet_mem hw
  have := List.inj_on_of_nodup_map hn h h2 rfl
  rw [hw]
  simp only [Prod.mk.injEq, true_and] at this
  rw [this]

theorem dictGet_none {d : List (α × β)} {k : α} : dictGet d k = none ↔ k ∉ d.map Prod.fst := by
  rw [← dictGet_isSome]; simp

theorem foldl_dictSet_new (n : β) {γ : Type} (es : List (α × γ)) : ∀ (m : List (α × β)),
    (m.map Prod.fst ++ es.map Prod.fst).Nodup →
    es.foldl (fun m e => dictSet m e.1 n) m = m ++ es.map (fun e => (e.1, n)) := by
  induction es with
  | nil => intro m _; simp
  | cons e es ih =>
    intro m h
    have hne : e.1 ∉ m.map Prod.fst := by
      intro hm
      exact (List.nodup_append.1 h).2.2 e.1 hm e.1 (by simp) rfl
    rw [List.foldl_cons, dictSet_new _ _ _ hne, ih]
    · simp
    · simpa using h
end Dict

variable {T : Type}

/-- Total size of a list of named tensors. -/
def totalBytes (size : T → Nat) (es : List (String × T)) : Nat := (es.map (fun e => size e.2)).sum

/-- The index entries of the shards, with the name of shard `i` given by `nm i`. -/
def entriesOf (nm : Nat → String) (shards : List (List (String × T))) : List (String × String) :=
  (shards.mapIdx (fun i s => s.map (fun e => (e.1, nm i)))).flatten

/-- A division of the saved tensors into shards that respects the limit and is greedy. -/
structure Division (limit : Int) (size : T → Nat) (saves : List (String × T))
    (shards : List (List (String × T))) : Prop where
  flatten : shards.flatten = saves
  nonempty : ∀ s ∈ shards, s ≠ []
  bounded : limit > 0 → ∀ s ∈ shards, s.length = 1 ∨ (totalBytes size s : Int) ≤ limit
  greedy : ∀ (i : Nat) s e s', shards[i]? = some s → shards[i + 1]? = some (e :: s') →
    limit > 0 ∧ ((totalBytes size s + size e.2 : Nat) : Int) > limit

structure SaveInv (c : Conf) (size : T → Nat) (saves : List (String × T)) (w : Writer T)
    (acts : List (Action T)) (shards : List (List (String × T))) : Prop where
  written : w.shardsWritten = shards.length
  acts_eq : acts = shards.mapIdx (fun i s => .dispatch (tmpName c.pre c.ext i) (.shard s))
  division : Division c.maxShardSize size saves
    (if w.current.isEmpty then shards else shards ++ [w.current])
  currentSize : w.currentSize = totalBytes size w.current
  totalSize : w.totalSize = totalBytes size shards.flatten
  weightMap : w.weightMap = entriesOf (tmpName c.pre c.ext) shards
  nonempty : saves ≠ [] → w.current ≠ []

theorem entriesOf_append (nm : Nat → String) (shards : List (List (String × T))) (s : List (String × T)) :
    entriesOf nm (shards ++ [s]) = entriesOf nm shards ++ s.map (fun e => (e.1, nm shards.length)) := by
  simp [entriesOf, List.mapIdx_append]

theorem entriesOf_keys (nm : Nat → String) (shards : List (List (String × T))) :
    (entriesOf nm shards).map Prod.fst = shards.flatten.map Prod.fst := by
  induction shards using List.reverseRecOn with
  | nil => simp [entriesOf]
  | append_singleton l s ih =>
    rw [entriesOf_append, List.map_append, ih]
    simp [Function.comp_def]

theorem totalBytes_append (size : T → Nat) (a b : List (String × T)) :
    totalBytes size (a ++ b) = totalBytes size a + totalBytes size b := by
  simp [totalBytes]

/-- Effect of a flush of a non-empty current shard. -/
theorem flush_inv {c : Conf} {size : T → Nat} {saves : List (String × T)} {w : Writer T}
    {acts : List (Action T)} {shards : List (List (String × T))} (h : SaveInv c size saves w acts shards)
    (hn : (saves.map Prod.fst).Nodup) (hne : w.current.isEmpty = false) :
    (flush c w).1.shardsWritten = shards.length + 1 ∧
    acts ++ (flush c w).2 = (shards ++ [w.current]).mapIdx
      (fun i s => .dispatch (tmpName c.pre c.ext i) (.shard s)) ∧
    Division c.maxShardSize size saves (shards ++ [w.current]) ∧
    (flush c w).1.current = [] ∧ (flush c w).1.currentSize = 0 ∧
    (flush c w).1.totalSize = totalBytes size saves ∧
    (flush c w).1.weightMap = entriesOf (tmpName c.pre c.ext) (shards ++ [w.current]) := by
  have hd := h.division
  rw [hne] at hd
  simp only [Bool.false_eq_true, if_false] at hd
  have hfl := hd.flatten
  simp only [flush, hne, Bool.false_eq_true, if_false]
  refine ⟨by rw [h.written], ?_, hd, trivial, trivial, ?_, ?_⟩
  · rw [h.acts_eq, List.mapIdx_append, h.written]; simp
  · rw [h.totalSize, h.currentSize, ← hfl]
    simp [totalBytes_append]
  · rw [foldl_dictSet_new, h.weightMap, h.written, entriesOf_append]
    rw [h.weightMap, entriesOf_keys]
    rw [← List.map_append]
    have : shards.flatten ++ w.current = saves := by rw [← hfl]; simp
    rw [this]; exact hn

theorem saveTensor_inv {c : Conf} {size : T → Nat} {saves : List (String × T)} {w : Writer T}
    {acts : List (Action T)} {shards : List (List (String × T))} (h : SaveInv c size saves w acts shards)
    (name : String) (t : T) (hn : ((saves ++ [(name, t)]).map Prod.fst).Nodup) :
    ∃ shards', SaveInv c size (saves ++ [(name, t)]) (saveTensor c size w name t).1
      (acts ++ (saveTensor c size w name t).2) shards' := by
  have hn' : (saves.map Prod.fst).Nodup := by
    rw [List.map_append] at hn
    exact (List.nodup_append.1 hn).1
  have hnew : name ∉ saves.map Prod.fst := by
    rw [List.map_append] at hn
    intro hm
    exact (List.nodup_append.1 hn).2.2 name hm name (by simp) rfl
  unfold saveTensor
  by_cases hc : w.current.isEmpty = false ∧ c.maxShardSize > 0 ∧
        ((w.currentSize + size t : Nat) : Int) > c.maxShardSize
  · -- the current shard is flushed first
    rw [if_pos hc]
    obtain ⟨f1, f2, f3, f4, f5, f6, f7⟩ := flush_inv h hn' hc.1
    refine ⟨shards ++ [w.current], ?_⟩
    have hcur : dictSet (flush c w).1.current name t = [(name, t)] := by
      rw [f4, dictSet_new] <;> simp
    refine ⟨?_, f2, ?_, ?_, ?_, f7, ?_⟩
    · simp only; rw [f1]; simp
    · simp only [hcur, List.isEmpty_cons, Bool.false_eq_true, if_false]
      refine ⟨?_, ?_, ?_, ?_⟩
      · rw [List.flatten_append, f3.flatten]; simp
      · intro s hs
        rcases List.mem_append.1 hs with hs | hs
        · exact f3.nonempty s hs
        · rw [List.mem_singleton] at hs; subst hs; simp
      · intro hl s hs
        rcases List.mem_append.1 hs with hs | hs
        · exact f3.bounded hl s hs
        · rw [List.mem_singleton] at hs; subst hs; simp
      · intro i s e s' h1 h2
        by_cases hi : i + 1 < (shards ++ [w.current]).length
        · rw [List.getElem?_append_left hi] at h2
          rw [List.getElem?_append_left (by omega)] at h1
          exact f3.greedy i s e s' h1 h2
        · have hi2 : i + 1 = (shards ++ [w.current]).length := by
            have := (List.getElem?_eq_some_iff.1 h2).1
            simp only [List.length_append, List.length_singleton] at this hi ⊢
            omega
          rw [hi2, List.getElem?_append_right (Nat.le_refl _)] at h2
          simp only [Nat.sub_self, List.getElem?_cons_zero, Option.some.injEq, List.cons.injEq] at h2
          obtain ⟨rfl, rfl⟩ := h2
          have hi3 : i = shards.length := by simpa using hi2
          rw [List.getElem?_append_left (by simp [hi3]), hi3,
            List.getElem?_append_right (Nat.le_refl _)] at h1
          simp only [Nat.sub_self, List.getElem?_cons_zero, Option.some.injEq] at h1
          subst h1
          rw [← h.currentSize]
          exact hc.2
    · simp only [hcur]; rw [f5]; simp [totalBytes]
    · simp only; rw [f6, f3.flatten]
    · intro _; simp only [hcur]; simp
  · -- the tensor goes into the current shard
    rw [if_neg hc]
    have hd := h.division
    have hcurkeys : name ∉ w.current.map Prod.fst := by
      intro hm
      apply hnew
      rw [← hd.flatten]
      obtain ⟨e, he, rfl⟩ := List.mem_map.1 hm
      refine List.mem_map.2 ⟨e, ?_, rfl⟩
      have : w.current.isEmpty = false := by
        cases hw : w.current with
        | nil => rw [hw] at he; cases he
        | cons => rfl
      rw [this]; simp [he]
    refine ⟨shards, h.written, by simpa using h.acts_eq, ?_, ?_, h.totalSize, h.weightMap, ?_⟩
    · simp only [dictSet_new _ _ _ hcurkeys]
      have : (w.current ++ [(name, t)]).isEmpty = false := by simp
      rw [this]
      simp only [Bool.false_eq_true, if_false]
      by_cases hw : w.current = []
      · -- first tensor of this shard
        rw [hw] at hd ⊢
        simp only [List.isEmpty_nil, if_true] at hd
        have hs0 : saves = [] := by
          by_contra hne
          exact h.nonempty hne hw
        have hsh : shards = [] := by
          cases hsx : shards with
          | nil => rfl
          | cons a l =>
            exfalso
            have h1 := hd.nonempty a (by rw [hsx]; simp)
            have h2 := hd.flatten
            rw [hs0, hsx, List.flatten_cons] at h2
            exact h1 (List.append_eq_nil_iff.1 h2).1
        subst hs0; subst hsh
        refine ⟨by simp, by simp, by simp, ?_⟩
        intro i s e s' h1 h2
        simp at h2
      · have hwe : w.current.isEmpty = false := by
          cases hw' : w.current with
          | nil => exact absurd hw' hw
          | cons => rfl
        rw [hwe] at hd
        simp only [Bool.false_eq_true, if_false] at hd
        have hnc : c.maxShardSize > 0 → ((w.currentSize + size t : Nat) : Int) ≤ c.maxShardSize := by
          intro hp
          by_contra hgt
          exact hc ⟨hwe, hp, by omega⟩
        refine ⟨?_, ?_, ?_, ?_⟩
        · rw [← hd.flatten]; simp
        · intro s hs
          rcases List.mem_append.1 hs with hs | hs
          · exact hd.nonempty s (by simp [hs])
          · rw [List.mem_singleton] at hs; subst hs; simp
        · intro hl s hs
          rcases List.mem_append.1 hs with hs | hs
          · exact hd.bounded hl s (by simp [hs])
          · rw [List.mem_singleton] at hs; subst hs
            right
            have := hnc hl
            rw [h.currentSize] at this
            rw [totalBytes_append]
            simpa [totalBytes] using this
        · intro i s e s' h1 h2
          by_cases hi : i + 1 < shards.length
          · rw [List.getElem?_append_left hi] at h2
            rw [List.getElem?_append_left (by omega)] at h1
            exact hd.greedy i s e s' (by rw [List.getElem?_append_left (by omega)]; exact h1)
              (by rw [List.getElem?_append_left hi]; exact h2)
          · have hi2 : i + 1 = shards.length := by
              have := (List.getElem?_eq_some_iff.1 h2).1
              simp only [List.length_append, List.length_singleton] at this
              omega
            rw [hi2, List.getElem?_append_right (Nat.le_refl _)] at h2
            simp only [Nat.sub_self, List.getElem?_cons_zero, Option.some.injEq] at h2
            rw [List.getElem?_append_left (by omega)] at h1
            cases hcur : w.current with
            | nil => exact absurd hcur hw
            | cons a l =>
              rw [hcur] at h2
              simp only [List.cons_append, List.cons.injEq] at h2
              obtain ⟨rfl, _⟩ := h2
              exact hd.greedy i s a l (by rw [List.getElem?_append_left (by omega)]; exact h1)
                (by rw [hi2, List.getElem?_append_right (Nat.le_refl _)]; simp [hcur])
    · simp only [dictSet_new _ _ _ hcurkeys, h.currentSize, totalBytes_append]
      simp [totalBytes]
    · intro _
      simp only [dictSet_new _ _ _ hcurkeys]
      simp

theorem saveAll_inv {c : Conf} {size : T → Nat} : ∀ (es saves : List (String × T)) (w : Writer T)
    (acts : List (Action T)) (shards : List (List (String × T))), SaveInv c size saves w acts shards →
    ((saves ++ es).map Prod.fst).Nodup →
    ∃ shards', SaveInv c size (saves ++ es) (saveAll c size w es).1 (acts ++ (saveAll c size w es).2) shards' := by
  intro es
  induction es with
  | nil => intro saves w acts shards h _; exact ⟨shards, by simpa [saveAll] using h⟩
  | cons e es ih =>
    intro saves w acts shards h hn
    have hn1 : ((saves ++ [(e.1, e.2)]).map Prod.fst).Nodup := by
      have : saves ++ e :: es = (saves ++ [(e.1, e.2)]) ++ es := by simp
      rw [this, List.map_append] at hn
      exact (List.nodup_append.1 hn).1
    obtain ⟨sh, h1⟩ := saveTensor_inv h e.1 e.2 hn1
    obtain ⟨sh', h2⟩ := ih _ _ _ _ h1 (by simpa using hn)
    refine ⟨sh', ?_⟩
    simp only [saveAll]
    simpa using h2

theorem init_inv (c : Conf) (size : T → Nat) : SaveInv c size [] ({} : Writer T) [] [] :=
  ⟨rfl, rfl, ⟨rfl, by simp, by simp, by simp⟩, rfl, rfl, rfl, by simp⟩

theorem dictGet_remap (c : Conf) (total i : Nat) (ht : total ≠ 1) (hi : i < total) :
    dictGet (nameRemap c total) (tmpName c.pre c.ext i) = some (finalName c.pre c.ext i total) := by
  unfold nameRemap
  rw [if_neg ht]
  apply dictGet_of_mem
  · rw [List.map_map]
    apply List.Nodup.map_on _ List.nodup_range
    intro a _ b _ h
    exact tmpName_inj h
  · exact List.mem_map.2 ⟨i, List.mem_range.2 hi, rfl⟩

theorem entriesOf_rename (nm nm' : Nat → String) (r : String → String)
    (shards : List (List (String × T))) (h : ∀ i < shards.length, r (nm i) = nm' i) :
    (entriesOf nm shards).map (fun e => (e.1, r e.2)) = entriesOf nm' shards := by
  induction shards using List.reverseRecOn with
  | nil => simp [entriesOf]
  | append_singleton l s ih =>
    rw [entriesOf_append, entriesOf_append, List.map_append,
      ih (fun i hi => h i (by simp; omega))]
    have := h l.length (by simp)
    simp [Function.comp_def, this]

/-- The tail of a session after all shards have been dispatched. -/
def tailActions (c : Conf) (size : T → Nat) (shards : List (List (String × T))) : List (Action T) :=
  .join :: ((nameRemap c shards.length).map (fun e => Action.op (.rename e.1 e.2)) ++
    (if shards.length > 1 then
      [.op (.write (indexName c.pre c.ext) (.index (totalBytes size shards.flatten)
        (entriesOf (fun i => finalName c.pre c.ext i shards.length) shards)))]
    else []))

/-- Everything a writer session does. -/
theorem session_spec (c : Conf) (size : T → Nat) (saves : List (String × T))
    (hn : (saves.map Prod.fst).Nodup) :
    ∃ shards, Division c.maxShardSize size saves shards ∧
      session c size saves =
        shards.mapIdx (fun i s => .dispatch (tmpName c.pre c.ext i) (.shard s)) ++
        tailActions c size shards := by
  obtain ⟨sh, h⟩ := saveAll_inv saves [] {} [] [] (init_inv c size) (by simpa using hn)
  simp only [List.nil_append] at h
  unfold session
  simp only
  generalize saveAll c size {} saves = r at h ⊢
  cases hcur : r.1.current.isEmpty with
  | true =>
    have hd := h.division
    rw [hcur] at hd
    simp only [if_true] at hd
    have hs0 : saves = [] := by
      by_contra hne
      exact h.nonempty hne (by simpa using hcur)
    have hsh : sh = [] := by
      cases hsx : sh with
      | nil => rfl
      | cons a l =>
        exfalso
        have h1 := hd.nonempty a (by rw [hsx]; simp)
        have h2 := hd.flatten
        rw [hs0, hsx, List.flatten_cons] at h2
        exact h1 (List.append_eq_nil_iff.1 h2).1
    refine ⟨sh, hd, ?_⟩
    subst hsh
    have hw := h.written
    simp only [List.length_nil] at hw
    have ha := h.acts_eq
    simp only [List.mapIdx_nil] at ha
    simp [finalize, flush, hcur, hw, nameRemap, tailActions, ha]
  | false =>
    obtain ⟨f1, f2, f3, f4, f5, f6, f7⟩ := flush_inv h hn hcur
    refine ⟨sh ++ [r.1.current], f3, ?_⟩
    rw [← f2]
    have hlen : (flush c r.1).1.shardsWritten = (sh ++ [r.1.current]).length := by rw [f1]; simp
    unfold finalize
    simp only
    rw [hlen]
    by_cases hgt : (sh ++ [r.1.current]).length > 1
    · rw [if_pos hgt]
      simp only [tailActions, if_pos hgt]
      have hwm : (flush c r.1).1.weightMap.map
          (fun e => (e.1, (dictGet (nameRemap c (sh ++ [r.1.current]).length) e.2).getD e.2)) =
          entriesOf (fun i => finalName c.pre c.ext i (sh ++ [r.1.current]).length) (sh ++ [r.1.current]) := by
        rw [f7]
        apply entriesOf_rename _ _
          (fun s => (dictGet (nameRemap c (sh ++ [r.1.current]).length) s).getD s)
        intro i hi
        rw [dictGet_remap c _ i (by omega) hi]
        rfl
      rw [hwm, f6, f3.flatten]
      simp
    · rw [if_neg hgt]
      simp only [tailActions, if_neg hgt]
      simp

end Verif.Writer
