import Verif.Model.MultiMerge
import Verif.Props.ModelRef
import Verif.Props.Pipeline
import Verif.Props.Vocab
import Mathlib.Data.List.Nodup
import Mathlib.Data.List.Perm.Subperm

/-! # C55: several merges in one file -/

set_option linter.unusedSectionVars false

namespace Verif.MultiMerge

open Verif.ModelRef

/-! ## References -/

/-- Specification: a dumped path and revision, read back. -/
def pathOf : Val → Option ModelPath
  | .dict m => match field m "path".toList, field m "revision".toList with
    | some (.str p), some (.str r) => some ⟨p, some r⟩
    | some (.str p), some (.num _) => some ⟨p, none⟩
    | _, _ => none
  | _ => none

/-- Specification: the model reference a dumped value stands for. -/
def asRef : Val → Option Ref
  | .str s => match parse s with
    | .ok r => some r
    | .error _ => none
  | .dict d => match (field d "model".toList).bind pathOf, field d "lora".toList, field d "override_architecture".toList with
    | some m, some (.num _), some (.num _) => some ⟨m, none, none⟩
    | some m, some (.num _), some (.str a) => some ⟨m, none, some a⟩
    | some m, some l, some (.num _) => (pathOf l).map (fun l => ⟨m, some l, none⟩)
    | some m, some l, some (.str a) => (pathOf l).map (fun l => ⟨m, some l, some a⟩)
    | _, _, _ => none
  | _ => none

/-- Specification: the same reference, to the model in the directory of intermediate results. -/
def relocated (dir : Str) (r : Ref) : Ref := { r with model := { r.model with path := pathJoin dir r.model.path } }

theorem noSep_join {dir n : Str} (hd : NoSep dir) (hn : NoSep n) : NoSep (pathJoin dir n) := by
  unfold NoSep at *
  unfold pathJoin
  split
  · exact hn
  · split <;> simp [List.mem_append, hd.1, hd.2, hn.1, hn.2]

theorem asRef_dumpRef (r : Ref) (h : r.Plain) : asRef (dumpRef r) = some r := by
  obtain ⟨m, l, o⟩ := r
  have ho : o = none := h.2.2
  subst ho
  unfold dumpRef Ref.serialize
  simp only [Option.isSome_none, Bool.false_eq_true, if_false]
  have hp : ∀ p : ModelPath, pathOf (dumpPath p) = some p := by
    rintro ⟨p, _ | r⟩ <;> rfl
  split
  · rename_i s hs
    split at hs
    · cases hs
    · cases hs
      simp only [asRef, C24_parse_print _ h]
  · rename_i r' hs
    split at hs
    · cases hs
      cases l with
      | none =>
        obtain ⟨p, rv⟩ := m
        cases rv <;> rfl
      | some l =>
        obtain ⟨p, rv⟩ := m
        obtain ⟨p', rv'⟩ := l
        cases rv <;> cases rv' <;> rfl
    · cases hs

/-- **C55** A reference to an intermediate merge is replaced by one that, read back, is the reference to its output path, with the same
revision and adapter (if neither the directory nor the reference has separator characters in its parts, see `C55_separator`). -/
theorem C55_reference (names : List Str) (dir s : Str) (r : Ref) (hs : parse s = .ok r) (hr : r.Plain) (hd : NoSep dir)
    (hn : r.model.path ∈ names) :
    ∃ w, patchStr names dir s = .ok (w, [r.model.path]) ∧ asRef w = some (relocated dir r) := by
  refine ⟨_, by unfold patchStr; simp only [hs]; rw [if_pos hn], ?_⟩
  apply asRef_dumpRef
  exact ⟨⟨noSep_join hd hr.1.1, hr.1.2⟩, hr.2.1, hr.2.2⟩

example : parse "step1@main+lora".toList = .ok ⟨⟨"step1".toList, some "main".toList⟩, some ⟨"lora".toList, none⟩, none⟩ ∧
    ∃ w, patchStr ["step1".toList] "/tmp/x".toList "step1@main+lora".toList = .ok (w, ["step1".toList]) ∧
      asRef w = some ⟨⟨"/tmp/x/step1".toList, some "main".toList⟩, some ⟨"lora".toList, none⟩, none⟩ :=
  ⟨by decide, _, rfl, by decide⟩

/-- With a separator character in the directory of intermediate results, the reference is to something else: here to a model "/tmp/a" with an
adapter. -/
theorem C55_separator : ∃ w, patchStr ["m".toList] "/tmp/a+b".toList "m".toList = .ok (w, ["m".toList]) ∧
    asRef w = some ⟨⟨"/tmp/a".toList, none⟩, some ⟨"b/m".toList, none⟩, none⟩ := ⟨_, rfl, by decide⟩

/-- Specification: the value mentions the model name `n` - in a string of any role, or in the fields of a reference. -/
inductive Mentions (n : Str) : Val → Prop
  | str (s : Str) (r : Ref) : parse s = .ok r → r.model.path = n → Mentions n (.str s)
  | fields (d m : List (Str × Val)) : isRefDict d = true → field d "model".toList = some (.dict m) →
      field m "path".toList = some (.str n) → Mentions n (.dict d)
  | list (v : Val) (l : List Val) : v ∈ l → Mentions n v → Mentions n (.list l)
  | dict (k : Str) (v : Val) (d : List (Str × Val)) : isRefDict d = false → (k, v) ∈ d → Mentions n v → Mentions n (.dict d)

/-- Specification: `w` is `v` with the references to the given names moved to the directory and nothing else changed. -/
inductive Moved (names : List Str) (dir : Str) : Val → Val → Prop
  | num (n : Int) : Moved names dir (.num n) (.num n)
  | other (s : Str) : (∀ n ∈ names, ¬ Mentions n (.str s)) → Moved names dir (.str s) (.str s)
  | ref (s : Str) (r : Ref) (w : Val) : parse s = .ok r → r.model.path ∈ names →
      (r.Plain → NoSep dir → asRef w = some (relocated dir r)) → Moved names dir (.str s) w
  | list (l l' : List Val) : List.Forall₂ (Moved names dir) l l' → Moved names dir (.list l) (.list l')
  | dict (d d' : List (Str × Val)) : isRefDict d = false → d.map Prod.fst = d'.map Prod.fst →
      List.Forall₂ (Moved names dir) (d.map Prod.snd) (d'.map Prod.snd) → Moved names dir (.dict d) (.dict d')
  | otherFields (d : List (Str × Val)) : isRefDict d = true → (∀ n ∈ names, ¬ Mentions n (.dict d)) → Moved names dir (.dict d) (.dict d)
  | refFields (d : List (Str × Val)) (w : Val) (n : Str) : isRefDict d = true → n ∈ names → Mentions n (.dict d) →
      (∀ r, asRef (.dict d) = some r → asRef w = some (relocated dir r)) → Moved names dir (.dict d) w

theorem field_setField (d : List (Str × Val)) (k k' : Str) (v : Val) :
    field (setField d k v) k' = if k' = k then (field d k).map (fun _ => v) else field d k' := by
  unfold field setField
  induction d with
  | nil => simp
  | cons e d ih =>
    obtain ⟨a, b⟩ := e
    by_cases ha : a = k
    · subst ha
      by_cases hk : k' = a
      · subst hk; simp
      · simp only [List.map_cons, if_true, List.find?_cons, decide_true, hk, if_false]
        rw [if_neg hk] at ih
        have : decide (a = k') = false := by simpa using fun h => hk h.symm
        simp only [this]
        exact ih
    · by_cases hk : k' = k
      · subst hk
        rw [if_pos rfl] at ih ⊢
        have : decide (a = k') = false := by simpa using ha
        simp only [List.map_cons, if_neg ha, List.find?_cons, this]
        exact ih
      · rw [if_neg hk] at ih ⊢
        simp only [List.map_cons, if_neg ha, List.find?_cons]
        cases h : decide (a = k')
        · exact ih
        · rfl

theorem mentions_str {n s : Str} : Mentions n (.str s) ↔ ∃ r, parse s = .ok r ∧ r.model.path = n := by
  constructor
  · rintro (⟨_, r, h, h'⟩)
    exact ⟨r, h, h'⟩
  · rintro ⟨r, h, h'⟩
    exact .str s r h h'

theorem mentions_fields {n : Str} {d : List (Str × Val)} (hd : isRefDict d = true) :
    Mentions n (.dict d) ↔ ∃ m, refPath d = some (m, n) := by
  unfold refPath
  constructor
  · intro h
    cases h with
    | fields _ m _ h1 h2 => exact ⟨m, by simp only [h1, h2]⟩
    | dict _ _ _ h => rw [hd] at h; cases h
  · rintro ⟨m, h⟩
    split at h
    · rename_i m' h1
      split at h
      · rename_i p h2
        cases h
        exact .fields d m hd h1 h2
      · cases h
    · cases h

theorem patchStr_spec (names : List Str) (dir s : Str) (w : Val) (used : List Str) (h : patchStr names dir s = .ok (w, used)) :
    Moved names dir (.str s) w ∧ ∀ n, n ∈ used ↔ n ∈ names ∧ Mentions n (.str s) := by
  unfold patchStr at h
  cases hp : parse s with
  | error e => rw [hp] at h; cases h
  | ok r =>
    rw [hp] at h
    simp only at h
    by_cases hn : r.model.path ∈ names
    · rw [if_pos hn] at h
      cases h
      refine ⟨Moved.ref s r _ hp hn ?_, ?_⟩
      · intro hr hd
        apply asRef_dumpRef
        exact ⟨⟨noSep_join hd hr.1.1, hr.1.2⟩, hr.2.1, hr.2.2⟩
      · intro n
        rw [mentions_str, List.mem_singleton]
        constructor
        · rintro rfl; exact ⟨hn, r, hp, rfl⟩
        · rintro ⟨_, r', hr', rfl⟩
          rw [hp] at hr'; cases hr'; rfl
    · rw [if_neg hn] at h
      cases h
      have hno : ∀ n ∈ names, ¬ Mentions n (.str s) := by
        intro n hn' hm
        obtain ⟨r', hr', rfl⟩ := mentions_str.1 hm
        rw [hp] at hr'; cases hr'
        exact hn hn'
      exact ⟨.other s hno, fun n => ⟨by simp, fun h => absurd h.2 (hno n h.1)⟩⟩

theorem patchRef_spec (names : List Str) (dir : Str) (d : List (Str × Val)) (hd : isRefDict d = true) (w : Val) (used : List Str)
    (h : patchRef names dir d = .ok (w, used)) :
    Moved names dir (.dict d) w ∧ ∀ n, n ∈ used ↔ n ∈ names ∧ Mentions n (.dict d) := by
  unfold patchRef at h
  cases hp : refPath d with
  | none => rw [hp] at h; cases h
  | some mp =>
    obtain ⟨m, p⟩ := mp
    rw [hp] at h
    simp only at h
    have hmen : ∀ n, Mentions n (.dict d) ↔ n = p := by
      intro n
      rw [mentions_fields hd, hp]
      constructor
      · rintro ⟨_, h⟩; cases h; rfl
      · rintro rfl; exact ⟨m, rfl⟩
    by_cases hn : p ∈ names
    · rw [if_pos hn] at h
      cases h
      refine ⟨.refFields d _ p hd hn ((hmen p).2 rfl) ?_, ?_⟩
      · intro r hr
        have hm : field d "model".toList = some (.dict m) ∧ field m "path".toList = some (.str p) := by
          unfold refPath at hp
          split at hp
          · rename_i m' h1
            split at hp
            · rename_i p' h2
              cases hp
              exact ⟨h1, h2⟩
            · cases hp
          · cases hp
        have hpath : ∀ q, pathOf (.dict m) = some q →
            pathOf (.dict (setField m "path".toList (.str (pathJoin dir p)))) = some { q with path := pathJoin dir q.path } := by
          intro q hq
          unfold pathOf at hq ⊢
          simp only [field_setField, if_true, hm.2, Option.map_some] at hq ⊢
          rw [if_neg (by decide)]
          cases hrv : field m "revision".toList with
          | none => rw [hrv] at hq; cases hq
          | some rv => rw [hrv] at hq; cases rv <;> simp only at hq ⊢ <;> cases hq <;> rfl
        simp only [asRef, field_setField, if_true, hm.1, Option.map_some, Option.bind_some] at hr ⊢
        rw [if_neg (by decide), if_neg (by decide)]
        cases hq : pathOf (.dict m) with
        | none =>
          rw [hq] at hr
          cases hr
        | some q =>
          rw [hpath q hq]
          rw [hq] at hr
          cases hl : field d "lora".toList with
          | none => rw [hl] at hr; cases hr
          | some l =>
            rw [hl] at hr
            cases ho : field d "override_architecture".toList with
            | none => rw [ho] at hr; cases l <;> cases hr
            | some o =>
              rw [ho] at hr
              cases l <;> cases o <;> simp only [Option.map_eq_some_iff] at hr ⊢ <;>
                first
                | (cases hr; rfl)
                | (obtain ⟨x, hx, rfl⟩ := hr; exact ⟨x, hx, rfl⟩)
                | (cases hr)
      · intro n
        rw [hmen, List.mem_singleton]
        constructor
        · rintro rfl; exact ⟨hn, rfl⟩
        · exact fun h => h.2
    · rw [if_neg hn] at h
      cases h
      have hno : ∀ n ∈ names, ¬ Mentions n (.dict d) := by
        intro n hn' hm
        rw [(hmen n).1 hm] at hn'
        exact hn hn'
      exact ⟨.otherFields d hd hno, fun n => ⟨by simp, fun h => absurd h.2 (hno n h.1)⟩⟩

mutual
theorem patch_spec (names : List Str) (dir : Str) : ∀ (v w : Val) (used : List Str), patch names dir v = .ok (w, used) →
    Moved names dir v w ∧ ∀ n, n ∈ used ↔ n ∈ names ∧ Mentions n v
  | .num n, w, used, h => by
    simp only [patch] at h
    cases h
    exact ⟨.num n, fun m => ⟨by simp, fun h => by cases h.2⟩⟩
  | .str s, w, used, h => patchStr_spec names dir s w used (by simpa only [patch] using h)
  | .list l, w, used, h => by
    simp only [patch] at h
    cases hl : patchList names dir l with
    | error e => rw [hl] at h; cases h
    | ok r =>
      rw [hl] at h
      cases h
      obtain ⟨h1, h2⟩ := patchList_spec names dir l r.1 r.2 hl
      refine ⟨.list _ _ h1, fun n => ?_⟩
      rw [h2]
      constructor
      · rintro ⟨hn, v, hv, hm⟩; exact ⟨hn, .list v l hv hm⟩
      · rintro ⟨hn, hm⟩
        cases hm with
        | list v _ hv hm => exact ⟨hn, v, hv, hm⟩
  | .dict d, w, used, h => by
    simp only [patch] at h
    cases hd : isRefDict d with
    | true =>
      rw [hd, if_pos rfl] at h
      exact patchRef_spec names dir d hd w used h
    | false =>
      rw [hd, if_neg (by simp)] at h
      cases hl : patchDict names dir d with
      | error e => rw [hl] at h; cases h
      | ok r =>
        rw [hl] at h
        cases h
        obtain ⟨h1, h2⟩ := patchDict_spec names dir d r.1 r.2 hl
        refine ⟨.dict _ _ hd h1.1 h1.2, fun n => ?_⟩
        rw [h2]
        constructor
        · rintro ⟨hn, k, v, hv, hm⟩; exact ⟨hn, .dict k v d hd hv hm⟩
        · rintro ⟨hn, hm⟩
          cases hm with
          | dict k v _ _ hv hm => exact ⟨hn, k, v, hv, hm⟩
          | fields _ _ h => rw [hd] at h; cases h
theorem patchList_spec (names : List Str) (dir : Str) : ∀ (l w : List Val) (used : List Str), patchList names dir l = .ok (w, used) →
    List.Forall₂ (Moved names dir) l w ∧ ∀ n, n ∈ used ↔ n ∈ names ∧ ∃ v ∈ l, Mentions n v
  | [], w, used, h => by
    simp only [patchList] at h
    cases h
    exact ⟨.nil, by simp⟩
  | v :: l, w, used, h => by
    simp only [patchList] at h
    cases hv : patch names dir v with
    | error e => rw [hv] at h; cases h
    | ok a =>
      rw [hv] at h
      cases hl : patchList names dir l with
      | error e => rw [hl] at h; cases h
      | ok b =>
        rw [hl] at h
        cases h
        obtain ⟨h1, h2⟩ := patch_spec names dir v a.1 a.2 hv
        obtain ⟨h3, h4⟩ := patchList_spec names dir l b.1 b.2 hl
        refine ⟨.cons h1 h3, fun n => ?_⟩
        rw [List.mem_append, h2, h4]
        simp only [List.mem_cons, exists_eq_or_imp]
        tauto
theorem patchDict_spec (names : List Str) (dir : Str) : ∀ (l w : List (Str × Val)) (used : List Str), patchDict names dir l = .ok (w, used) →
    (l.map Prod.fst = w.map Prod.fst ∧ List.Forall₂ (Moved names dir) (l.map Prod.snd) (w.map Prod.snd)) ∧
      ∀ n, n ∈ used ↔ n ∈ names ∧ ∃ k v, (k, v) ∈ l ∧ Mentions n v
  | [], w, used, h => by
    simp only [patchDict] at h
    cases h
    exact ⟨⟨rfl, .nil⟩, by simp⟩
  | (k, v) :: l, w, used, h => by
    simp only [patchDict] at h
    cases hv : patch names dir v with
    | error e => rw [hv] at h; cases h
    | ok a =>
      rw [hv] at h
      cases hl : patchDict names dir l with
      | error e => rw [hl] at h; cases h
      | ok b =>
        rw [hl] at h
        cases h
        obtain ⟨h1, h2⟩ := patch_spec names dir v a.1 a.2 hv
        obtain ⟨h3, h4⟩ := patchDict_spec names dir l b.1 b.2 hl
        refine ⟨⟨by simp [h3.1], .cons h1 h3.2⟩, fun n => ?_⟩
        rw [List.mem_append, h2, h4]
        constructor
        · rintro (⟨hn, hm⟩ | ⟨hn, k', v', hk, hm⟩)
          · exact ⟨hn, k, v, List.mem_cons_self, hm⟩
          · exact ⟨hn, k', v', List.mem_cons_of_mem _ hk, hm⟩
        · rintro ⟨hn, k', v', hk, hm⟩
          rcases List.mem_cons.1 hk with he | hk
          · cases he; exact Or.inl ⟨hn, hm⟩
          · exact Or.inr ⟨hn, k', v', hk, hm⟩
end

/-- **C55** Patching a configuration moves the references to intermediate merges, changes nothing else, and reports exactly the merges that
are mentioned. -/
theorem C55_patch (names : List Str) (dir : Str) (v w : Val) (used : List Str) (h : patch names dir v = .ok (w, used)) :
    Moved names dir v w ∧ ∀ n, n ∈ used ↔ n ∈ names ∧ Mentions n v := patch_spec names dir v w used h

/-- Specification: a string that cannot be read as a reference, or fields of a reference without a path, occur somewhere. -/
inductive Unreadable : Val → Prop
  | str (s : Str) (e : ParseError) : parse s = .error e → Unreadable (.str s)
  | fields (d : List (Str × Val)) : isRefDict d = true → (∀ n, ¬ Mentions n (.dict d)) → Unreadable (.dict d)
  | list (v : Val) (l : List Val) : v ∈ l → Unreadable v → Unreadable (.list l)
  | dict (k : Str) (v : Val) (d : List (Str × Val)) : isRefDict d = false → (k, v) ∈ d → Unreadable v → Unreadable (.dict d)

mutual
theorem patch_error (names : List Str) (dir : Str) : ∀ v : Val, (∃ e, patch names dir v = .error e) ↔ Unreadable v
  | .num n => by
    simp only [patch]
    constructor
    · rintro ⟨_, h⟩; cases h
    · intro h; cases h
  | .str s => by
    simp only [patch, patchStr]
    constructor
    · rintro ⟨e, h⟩
      cases hp : parse s with
      | error e' => exact .str s e' hp
      | ok r =>
        rw [hp] at h
        simp only at h
        split at h <;> cases h
    · intro h
      cases h with
      | str _ e hp => rw [hp]; exact ⟨_, rfl⟩
  | .list l => by
    have := patchList_error names dir l
    simp only [patch]
    constructor
    · rintro ⟨e, h⟩
      cases hl : patchList names dir l with
      | error e' =>
        obtain ⟨v, hv, hu⟩ := this.1 ⟨e', hl⟩
        exact .list v l hv hu
      | ok r => rw [hl] at h; cases h
    · intro h
      cases h with
      | list v _ hv hu =>
        obtain ⟨e, he⟩ := this.2 ⟨v, hv, hu⟩
        rw [he]; exact ⟨_, rfl⟩
  | .dict d => by
    have := patchDict_error names dir d
    simp only [patch]
    cases hd : isRefDict d with
    | true =>
      rw [if_pos rfl]
      unfold patchRef
      constructor
      · rintro ⟨e, h⟩
        refine .fields d hd (fun n hn => ?_)
        obtain ⟨m, hm⟩ := (mentions_fields hd).1 hn
        rw [hm] at h
        simp only at h
        split at h <;> cases h
      · intro h
        cases h with
        | fields _ _ hno =>
          cases hp : refPath d with
          | none => exact ⟨_, rfl⟩
          | some x => exact absurd ((mentions_fields hd).2 ⟨x.1, hp⟩) (hno x.2)
        | dict _ _ _ h => rw [hd] at h; cases h
    | false =>
      rw [if_neg (by simp)]
      constructor
      · rintro ⟨e, h⟩
        cases hl : patchDict names dir d with
        | error e' =>
          obtain ⟨k, v, hv, hu⟩ := this.1 ⟨e', hl⟩
          exact .dict k v d hd hv hu
        | ok r => rw [hl] at h; cases h
      · intro h
        cases h with
        | dict k v _ _ hv hu =>
          obtain ⟨e, he⟩ := this.2 ⟨k, v, hv, hu⟩
          rw [he]; exact ⟨_, rfl⟩
        | fields _ h => rw [hd] at h; cases h
theorem patchList_error (names : List Str) (dir : Str) : ∀ l : List Val, (∃ e, patchList names dir l = .error e) ↔ ∃ v ∈ l, Unreadable v
  | [] => by simp [patchList]
  | v :: l => by
    have h1 := patch_error names dir v
    have h2 := patchList_error names dir l
    simp only [List.mem_cons, exists_eq_or_imp, ← h1, ← h2, patchList]
    cases hv : patch names dir v with
    | error e => simp
    | ok a =>
      cases hl : patchList names dir l with
      | error e => simp
      | ok b => simp
theorem patchDict_error (names : List Str) (dir : Str) : ∀ l : List (Str × Val),
    (∃ e, patchDict names dir l = .error e) ↔ ∃ k v, (k, v) ∈ l ∧ Unreadable v
  | [] => by simp [patchDict]
  | (k, v) :: l => by
    have h1 := patch_error names dir v
    have h2 := patchDict_error names dir l
    have h3 : (∃ k' v', (k', v') ∈ (k, v) :: l ∧ Unreadable v') ↔ Unreadable v ∨ ∃ k' v', (k', v') ∈ l ∧ Unreadable v' := by
      constructor
      · rintro ⟨k', v', hk, hu⟩
        rcases List.mem_cons.1 hk with he | hk
        · cases he; exact Or.inl hu
        · exact Or.inr ⟨k', v', hk, hu⟩
      · rintro (hu | ⟨k', v', hk, hu⟩)
        · exact ⟨k, v, List.mem_cons_self, hu⟩
        · exact ⟨k', v', List.mem_cons_of_mem _ hk, hu⟩
    rw [h3, ← h1, ← h2]
    simp only [patchDict]
    cases hv : patch names dir v with
    | error e => simp
    | ok a =>
      cases hl : patchDict names dir l with
      | error e => simp
      | ok b => simp
end

/-- **C55** Disagreement: a configuration is refused exactly if some string in it, whatever its role, cannot be read as a model reference. -/
theorem C55_refused (names : List Str) (dir : Str) (v : Val) : (∃ e, patch names dir v = .error e) ↔ Unreadable v := patch_error names dir v

/-- In particular a chat template that concatenates three strings is refused, even if it is the only document. -/
theorem C55_template_crashes : ∃ e, patch [] [] (.dict [("chat_template".toList, .str "{{ a + b + c }}".toList)]) = .error e :=
  ⟨.badReference, by rfl⟩

/-- Disagreement: a merge named like a merge method counts as referred to by every merge that uses the method - itself included - and the
method is overwritten by a path. -/
theorem C55_any_string : patch ["linear".toList] "/tmp".toList (.dict [("merge_method".toList, .str "linear".toList)]) =
    .ok (.dict [("merge_method".toList, .str "/tmp/linear".toList)], ["linear".toList]) := by rfl

example : ∃ r, patch ["a".toList] "/tmp".toList (.dict [("models".toList, .list [.dict [("model".toList, .str "a".toList)]])]) = .ok r ∧
    r.2 = ["a".toList] := ⟨_, rfl, rfl⟩

end Verif.MultiMerge
