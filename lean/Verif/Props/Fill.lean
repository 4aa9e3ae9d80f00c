import Verif.Model.Fill
import Verif.Props.Writer
import Verif.Props.Embed
import Mathlib.Data.List.Nodup

/-! # Completing a submodel (C62) -/

namespace Verif.Fill

open Verif.ModelRef (Str)

variable {V : Type}

/-- A submodel's name as it would be called in the larger model: behind `p` and a dot, or as it is if `p` is empty. -/
def inside (p x : Str) : Str := if p = [] then x else p ++ '.' :: x

theorem withPrefix_eq (p x : Str) : withPrefix p x = inside p x := by
  unfold withPrefix inside
  split
  · rfl
  · simp

theorem strip_inside (p x : Str) (h : p ≠ []) : stripPrefix (p ++ '.' :: x) p = x := by
  have hp : (p ++ ['.']).isPrefixOf (p ++ '.' :: x) = true := List.isPrefixOf_iff_prefix.mpr ⟨x, by simp⟩
  rw [stripPrefix, if_pos ⟨h, hp⟩]
  have : p ++ '.' :: x = (p ++ ['.']) ++ x := by simp
  rw [this, List.drop_left' (by simp)]

theorem stripPrefix_inside (p x : Str) : stripPrefix (inside p x) p = x := by
  by_cases h : p = []
  · subst h; simp [inside, stripPrefix]
  · rw [inside, if_neg h, strip_inside p x h]

/-- The set of possible prefixes, in the order in which the run goes through them: the parts before the first dot. -/
def Candidates (base order : List Str) : Prop := order.Nodup ∧ ∀ p, p ∈ order ↔ ∃ n ∈ base, '.' ∈ n ∧ p = n.takeWhile (· ≠ '.')

theorem foldl_best (f : Str → Nat) (order : List Str) (b : Str) :
    let r := order.foldl (fun b p => if f b < f p then p else b) b
    (r = b ∨ (r ∈ order ∧ f b < f r)) ∧ f b ≤ f r ∧ ∀ p ∈ order, f p ≤ f r := by
  induction order generalizing b with
  | nil => simp
  | cons q order ih =>
    simp only [List.foldl_cons]
    have h := ih (if f b < f q then q else b)
    simp only at h
    split at h
    · rename_i hq
      obtain ⟨h1, h2, h3⟩ := h
      rw [if_pos hq]
      refine ⟨Or.inr ?_, by omega, ?_⟩
      · rcases h1 with h1 | ⟨h1, h1'⟩
        · rw [h1]; exact ⟨by simp, hq⟩
        · exact ⟨List.mem_cons_of_mem _ h1, by omega⟩
      · intro p hp
        rcases List.mem_cons.mp hp with rfl | hp
        · exact h2
        · exact h3 p hp
    · rename_i hq
      obtain ⟨h1, h2, h3⟩ := h
      rw [if_neg hq]
      refine ⟨?_, h2, ?_⟩
      · rcases h1 with h1 | ⟨h1, h1'⟩
        · exact Or.inl h1
        · exact Or.inr ⟨List.mem_cons_of_mem _ h1, h1'⟩
      · intro p hp
        rcases List.mem_cons.mp hp with rfl | hp
        · omega
        · exact h3 p hp

/-- Number of tensors of the submodel found in the larger model once prefix `p` is taken off its names. -/
def found (base sub : List Str) (p : Str) : Nat := (sub.filter (fun x => decide (x ∈ base ∧ ¬ (p ++ ['.'] <+: x ∧ p ≠ []) ∨ inside p x ∈ base))).length

theorem mem_stripped (base : List Str) (p x : Str) :
    x ∈ base.map (fun n => stripPrefix n p) ↔ (x ∈ base ∧ ¬ (p ++ ['.'] <+: x ∧ p ≠ [])) ∨ inside p x ∈ base := by
  constructor
  · intro h
    obtain ⟨n, hn, rfl⟩ := List.mem_map.mp h
    by_cases hp : p ≠ [] ∧ (p ++ ['.']).isPrefixOf n = true
    · right
      obtain ⟨y, rfl⟩ := List.isPrefixOf_iff_prefix.mp hp.2
      have he : (p ++ ['.']) ++ y = p ++ '.' :: y := by simp
      rw [he] at hn ⊢
      rw [strip_inside p y hp.1, inside, if_neg hp.1]
      exact hn
    · left
      rw [stripPrefix, if_neg hp]
      exact ⟨hn, fun h => hp ⟨h.2, List.isPrefixOf_iff_prefix.mpr h.1⟩⟩
  · rintro (⟨h, hp⟩ | h)
    · refine List.mem_map.mpr ⟨x, h, ?_⟩
      rw [stripPrefix, if_neg]
      rintro ⟨h1, h2⟩
      exact hp ⟨List.isPrefixOf_iff_prefix.mp h2, h1⟩
    · exact List.mem_map.mpr ⟨_, h, stripPrefix_inside p x⟩

theorem matches_found (base sub : List Str) (p : Str) : matches_ base sub p = found base sub p := by
  rw [matches_, found]
  congr 1
  apply List.filter_congr
  intro x _
  rw [decide_eq_decide]
  exact mem_stripped base p x

/-- C62: the prefix is one under which most of the submodel's tensors are found; it is empty unless another one is strictly better. -/
theorem C62_prefix_best {base sub order : List Str} (hc : Candidates base order) :
    (findPrefix order base sub = [] ∨ found base sub [] < found base sub (findPrefix order base sub)) ∧
      ∀ n ∈ base, '.' ∈ n → found base sub (n.takeWhile (· ≠ '.')) ≤ found base sub (findPrefix order base sub) := by
  have h := foldl_best (matches_ base sub) order []
  simp only at h
  rw [← findPrefix] at h
  obtain ⟨h1, _, h3⟩ := h
  simp only [matches_found] at h1 h3
  refine ⟨h1.imp id And.right, ?_⟩
  intro n hn hd
  exact h3 _ ((hc.2 _).mpr ⟨n, hn, hd, rfl⟩)

theorem found_le (base sub : List Str) (p : Str) : found base sub p ≤ sub.length := List.length_filter_le _ _

theorem found_all {base sub : List Str} {p : Str} (h : ∀ x ∈ sub, inside p x ∈ base) : found base sub p = sub.length := by
  rw [found, List.filter_eq_self.mpr]
  intro x hx
  simp [h x hx]

theorem found_lt {base sub : List Str} {p : Str} (h : ∃ x ∈ sub, x ∉ base ∧ inside p x ∉ base) : found base sub p < sub.length := by
  obtain ⟨x, hx, h1, h2⟩ := h
  rcases Nat.lt_or_ge (found base sub p) sub.length with h | h
  · exact h
  · have he : found base sub p = sub.length := Nat.le_antisymm (found_le _ _ _) h
    rw [found, List.length_filter_eq_length_iff] at he
    have := he x hx
    simp [h1, h2] at this

/-! ## The tensors written -/

/-- What is written for the larger model's tensor `e`: the submodel's tensor of that name under prefix `p`, or else its own. -/
def Filled (sub : List (Str × V)) (p : Str) (e w : Str × V) : Prop :=
  w.1 = e.1 ∧ ((∃ x, e.1 = inside p x ∧ (x, w.2) ∈ sub) ∨ ((∀ x ∈ sub.map Prod.fst, e.1 ≠ inside p x) ∧ w.2 = e.2))

theorem lookup_of_mem {sub : List (Str × V)} {x : Str} (h : x ∈ sub.map Prod.fst) : ∃ v, sub.lookup x = some v ∧ (x, v) ∈ sub := by
  induction sub with
  | nil => simp at h
  | cons e sub ih =>
    obtain ⟨k, v⟩ := e
    rw [List.lookup_cons]
    by_cases hk : x = k
    · subst hk; exact ⟨v, by simp, by simp⟩
    · have hb : (x == k) = false := by simpa using hk
      rw [hb]
      rw [List.map_cons, List.mem_cons] at h
      obtain ⟨v', h1, h2⟩ := ih (h.resolve_left hk)
      exact ⟨v', h1, List.mem_cons_of_mem _ h2⟩

theorem pick_ok {sub : List (Str × V)} {base : List Str} {p : Str} (e : Str × V) (he : e.1 ∈ base) :
    ∃ w, pick sub (common base (sub.map Prod.fst) p) p e = .ok w ∧ Filled sub p e w := by
  unfold pick
  split
  · rename_i hs
    rw [common, List.mem_filter, decide_eq_true_eq] at hs
    obtain ⟨x, hx, hxe⟩ := List.mem_map.mp hs.2
    rw [withPrefix_eq] at hxe
    rw [← hxe, stripPrefix_inside]
    obtain ⟨v, hv, hm⟩ := lookup_of_mem hx
    rw [hv]
    exact ⟨_, rfl, hxe, Or.inl ⟨x, hxe.symm, hm⟩⟩
  · rename_i hs
    refine ⟨e, rfl, rfl, Or.inr ⟨?_, rfl⟩⟩
    intro x hx hxe
    exact hs (List.mem_filter.mpr ⟨he, by rw [decide_eq_true_eq]; exact List.mem_map.mpr ⟨x, hx, by rw [withPrefix_eq, hxe]⟩⟩)

theorem mapM_pick {sub : List (Str × V)} {base : List Str} {p : Str} (es : List (Str × V)) (he : ∀ e ∈ es, e.1 ∈ base) :
    ∃ ws, es.mapM (pick sub (common base (sub.map Prod.fst) p) p) = .ok ws ∧ List.Forall₂ (Filled sub p) es ws := by
  induction es with
  | nil => exact ⟨[], rfl, .nil⟩
  | cons e es ih =>
    obtain ⟨w, hw, hf⟩ := pick_ok (sub := sub) (p := p) e (he e (by simp))
    obtain ⟨ws, hws, hfs⟩ := ih (fun e' h => he e' (List.mem_cons_of_mem _ h))
    refine ⟨w :: ws, ?_, .cons hf hfs⟩
    rw [List.mapM_cons, hw, hws]; rfl

/-- C62: a run succeeds exactly if the larger model has more tensors than the submodel.  It then writes each tensor of the larger model under its
name, once and in order, with the value the submodel has for it under the prefix chosen, or else its own value. -/
theorem C62_written (order : List Str) (base sub : List (Str × V)) :
    if sub.length < base.length then
      ∃ out, fill order base sub = .ok out ∧
        List.Forall₂ (Filled sub (findPrefix order (base.map Prod.fst) (sub.map Prod.fst))) base out
    else fill order base sub = .error .assertion := by
  unfold fill
  split
  · exact mapM_pick base (fun e he => List.mem_map.mpr ⟨e, he, rfl⟩)
  · rfl

theorem names_of_filled {sub : List (Str × V)} {p : Str} {es ws : List (Str × V)} (h : List.Forall₂ (Filled sub p) es ws) :
    ws.map Prod.fst = es.map Prod.fst := by
  induction h with
  | nil => rfl
  | cons h _ ih => rw [List.map_cons, List.map_cons, h.1, ih]

theorem takes_sub {sub : List (Str × V)} {p : Str} {es ws : List (Str × V)} (hn : (sub.map Prod.fst).Nodup) (h : List.Forall₂ (Filled sub p) es ws)
    {x : Str} {v : V} (hx : (x, v) ∈ sub) (hp : inside p x ∈ es.map Prod.fst) : (inside p x, v) ∈ ws := by
  induction h with
  | nil => simp at hp
  | @cons e w es ws h _ ih =>
    rw [List.map_cons, List.mem_cons] at hp
    rcases hp with hp | hp
    · obtain ⟨h1, h2⟩ := h
      rcases h2 with ⟨y, hy, hm⟩ | ⟨h2, _⟩
      · have hxy : x = y := by
          have := congrArg (fun n => stripPrefix n p) (hp.trans hy)
          simpa only [stripPrefix_inside] using this
        subst hxy
        have hv : w.2 = v := by
          have := List.inj_on_of_nodup_map hn hm hx rfl
          exact congrArg Prod.snd this
        exact List.mem_cons.mpr (Or.inl (Prod.ext (by simpa using hp.trans h1.symm) hv.symm))
      · exact absurd hp.symm (h2 x (List.mem_map.mpr ⟨_, hx, rfl⟩))
    · exact List.mem_cons_of_mem _ (ih hp)

theorem keeps_base {sub : List (Str × V)} {p : Str} {es ws : List (Str × V)} (h : List.Forall₂ (Filled sub p) es ws)
    {n : Str} {v : V} (hx : (n, v) ∈ es) (hp : ∀ x ∈ sub.map Prod.fst, n ≠ inside p x) : (n, v) ∈ ws := by
  induction h with
  | nil => simp at hx
  | @cons e w es ws h _ ih =>
    rcases List.mem_cons.mp hx with rfl | hx
    · obtain ⟨h1, h2⟩ := h
      rcases h2 with ⟨y, hy, hm⟩ | ⟨_, h2⟩
      · exact absurd hy (hp y (List.mem_map.mpr ⟨_, hm, rfl⟩))
      · exact List.mem_cons.mpr (Or.inl (Prod.ext h1.symm h2.symm))
    · exact List.mem_cons_of_mem _ (ih hx)

/-- The prefix under which the submodel sits in the larger model, and the only one: each of its names is there with the prefix; with another one,
some name is missing, with and without it. -/
def SitsAt (base sub : List Str) (p : Str) : Prop :=
  (∀ x ∈ sub, inside p x ∈ base) ∧
    ((p = []) ∨ '.' ∉ p ∧ sub ≠ [] ∧ (∃ x ∈ sub, x ∉ base) ∧
      ∀ n ∈ base, '.' ∈ n → n.takeWhile (· ≠ '.') ≠ p → ∃ x ∈ sub, x ∉ base ∧ inside (n.takeWhile (· ≠ '.')) x ∉ base)

theorem takeWhile_prefix {p : Str} (x : Str) (h : '.' ∉ p) : (p ++ '.' :: x).takeWhile (· ≠ '.') = p := by
  induction p with
  | nil => simp
  | cons c p ih =>
    have hc : c ≠ '.' := fun e => h (by simp [e])
    rw [List.cons_append, List.takeWhile_cons, if_pos (by simpa using hc), ih (fun e => h (List.mem_cons_of_mem _ e))]

/-- C62: if the submodel sits in the larger model under one prefix only, that prefix is found, in whichever order prefixes are tried. -/
theorem C62_prefix_found {base sub order : List Str} {p : Str} (hc : Candidates base order) (hs : SitsAt base sub p) :
    findPrefix order base sub = p := by
  have hbest := C62_prefix_best (sub := sub) hc
  have hmem : findPrefix order base sub = [] ∨ findPrefix order base sub ∈ order := by
    have h := (foldl_best (matches_ base sub) order []).1
    rw [← findPrefix] at h
    exact h.imp id And.left
  obtain ⟨hall, hp⟩ := hs
  rcases hp with rfl | ⟨hdot, hne, hx0, hother⟩
  · rcases hbest.1 with h | h
    · exact h
    · rw [found_all hall] at h
      exact absurd h (not_lt.mpr (found_le _ _ _))
  · by_cases hpe : p = []
    · subst hpe
      obtain ⟨x, hx, hx'⟩ := hx0
      exact absurd (hall x hx) hx'
    obtain ⟨x, hx⟩ := List.exists_mem_of_ne_nil _ hne
    have hb : p ++ '.' :: x ∈ base := by have := hall x hx; rwa [inside, if_neg hpe] at this
    have hle := hbest.2 _ hb (by simp)
    rw [takeWhile_prefix x hdot, found_all hall] at hle
    by_contra hcon
    have hlt : found base sub (findPrefix order base sub) < sub.length := by
      rcases hmem with h | h
      · rw [h]
        obtain ⟨y, hy, hy'⟩ := hx0
        exact found_lt ⟨y, hy, hy', by simpa [inside] using hy'⟩
      · obtain ⟨n, hn, hd, he⟩ := (hc.2 _).mp h
        rw [he] at hcon ⊢
        exact found_lt (hother n hn hd hcon)
    omega

/-- C62: a submodel that sits in a larger model under one prefix only (or none) is put there completely, and the rest of the larger model is kept,
for every order in which prefixes are tried. -/
theorem C62_filled {order : List Str} {base sub : List (Str × V)} {p : Str} (hc : Candidates (base.map Prod.fst) order)
    (hs : SitsAt (base.map Prod.fst) (sub.map Prod.fst) p) (hn : (sub.map Prod.fst).Nodup) (hl : sub.length < base.length) :
    ∃ out, fill order base sub = .ok out ∧ out.map Prod.fst = base.map Prod.fst ∧
      (∀ e ∈ sub, (inside p e.1, e.2) ∈ out) ∧ ∀ e ∈ base, (∀ x ∈ sub.map Prod.fst, e.1 ≠ inside p x) → e ∈ out := by
  have h := C62_written order base sub
  rw [if_pos hl] at h
  obtain ⟨out, ho, hf⟩ := h
  rw [C62_prefix_found hc hs] at hf
  refine ⟨out, ho, names_of_filled hf, ?_, ?_⟩
  · intro e he
    exact takes_sub hn hf he (hs.1 _ (List.mem_map.mpr ⟨e, he, rfl⟩))
  · intro e he hp
    exact keeps_base hf he hp

theorem eraseDups_nodup (n : Nat) (l : List Str) (h : l.length ≤ n) : l.eraseDups.Nodup := by
  induction n generalizing l with
  | zero => cases l with | nil => simp | cons a l => simp at h
  | succ n ih =>
    cases l with
    | nil => simp
    | cons a l =>
      rw [List.eraseDups_cons, List.nodup_cons]
      have hl := List.length_filter_le (fun b => !b == a) l
      refine ⟨?_, ih _ (by simp only [List.length_cons] at h; omega)⟩
      rw [List.mem_eraseDups]
      simp

theorem prefixes_candidates (base : List Str) (shuffle : List Str → List Str) (hs : ∀ l, (shuffle l).Perm l) :
    Candidates base (shuffle (prefixes base)) := by
  refine ⟨(hs _).nodup_iff.2 ?_, fun p => ?_⟩
  · unfold prefixes
    exact eraseDups_nodup _ _ (le_refl _)
  · rw [(hs _).mem_iff]
    unfold prefixes firstPart
    rw [List.mem_eraseDups]
    simp only [List.mem_map, List.mem_filter, decide_eq_true_eq]
    constructor
    · rintro ⟨n, ⟨h1, h2⟩, rfl⟩
      exact ⟨n, h1, h2, rfl⟩
    · rintro ⟨n, h1, h2, rfl⟩
      exact ⟨n, ⟨h1, h2⟩, rfl⟩

/-- C62: the run as a whole, however the set of prefixes is ordered. -/
theorem C62_run (shuffle : List Str → List Str) (hsh : ∀ l, (shuffle l).Perm l) {base sub : List (Str × V)} {p : Str}
    (hs : SitsAt (base.map Prod.fst) (sub.map Prod.fst) p) (hn : (sub.map Prod.fst).Nodup) (hl : sub.length < base.length) :
    ∃ out, fillAny shuffle base sub = .ok out ∧ out.map Prod.fst = base.map Prod.fst ∧
      (∀ e ∈ sub, (inside p e.1, e.2) ∈ out) ∧ ∀ e ∈ base, (∀ x ∈ sub.map Prod.fst, e.1 ≠ inside p x) → e ∈ out :=
  C62_filled (prefixes_candidates _ shuffle hsh) hs hn hl

/-- A vision-language model and its language model. -/
def vlm : List (Str × Nat) := [(cs!"vision.a", 1), (cs!"lm.x", 2), (cs!"lm.y", 3), (cs!"head", 4)]

def lm : List (Str × Nat) := [(cs!"x", 20), (cs!"y", 30)]

theorem vlm_candidates : Candidates (vlm.map Prod.fst) [cs!"vision", cs!"lm"] := by
  refine ⟨by decide, ?_⟩
  intro p
  constructor
  · intro h
    simp only [List.mem_cons, List.not_mem_nil, or_false] at h
    rcases h with rfl | rfl
    · exact ⟨cs!"vision.a", by decide, by decide, by decide⟩
    · exact ⟨cs!"lm.x", by decide, by decide, by decide⟩
  · rintro ⟨n, hn, hd, rfl⟩
    revert n
    decide

/-- The hypotheses of the theorems above hold for them. -/
theorem lm_sits : SitsAt (vlm.map Prod.fst) (lm.map Prod.fst) cs!"lm" := by
  refine ⟨by decide, Or.inr ⟨by decide, by decide, by decide, ?_⟩⟩
  decide

example : fill [cs!"vision", cs!"lm"] vlm lm = .ok [(cs!"vision.a", 1), (cs!"lm.x", 20), (cs!"lm.y", 30), (cs!"head", 4)] := by decide

example : (lm.map Prod.fst).Nodup ∧ lm.length < vlm.length := by decide

/-! ## Where it fails -/

/-- C62, refuted: a tensor both models have under the same name is not replaced if a prefix is chosen for others. -/
theorem C62_shared_ignored :
    fill [cs!"a"] [(cs!"a.x", 1), (cs!"y", 2), (cs!"a.z", 3)] [(cs!"x", 10), (cs!"y", 20)] =
      .ok [(cs!"a.x", 10), (cs!"y", 2), (cs!"a.z", 3)] := by decide

/-- C62, refuted: if two prefixes are equally good, the order of a set (different from run to run) decides where the submodel goes. -/
theorem C62_order_matters :
    let base := [(cs!"a.x", 1), (cs!"b.x", 2)]
    Candidates (base.map Prod.fst) [cs!"a", cs!"b"] ∧ Candidates (base.map Prod.fst) [cs!"b", cs!"a"] ∧
      fill [cs!"a", cs!"b"] base [(cs!"x", 10)] = .ok [(cs!"a.x", 10), (cs!"b.x", 2)] ∧
      fill [cs!"b", cs!"a"] base [(cs!"x", 10)] = .ok [(cs!"a.x", 1), (cs!"b.x", 10)] := by
  refine ⟨⟨by decide, ?_⟩, ⟨by decide, ?_⟩, by decide, by decide⟩
  all_goals
    intro p
    constructor
    · intro h
      simp only [List.mem_cons, List.not_mem_nil, or_false] at h
      rcases h with rfl | rfl
      · first | exact ⟨cs!"a.x", by decide, by decide, by decide⟩ | exact ⟨cs!"b.x", by decide, by decide, by decide⟩
      · first | exact ⟨cs!"a.x", by decide, by decide, by decide⟩ | exact ⟨cs!"b.x", by decide, by decide, by decide⟩
    · rintro ⟨n, hn, hd, rfl⟩
      revert n
      decide

/-! ## The directory -/

open Verif.Writer in
/-- C62: the output directory, which starts out with the larger model's other files, holds the tensors written, provided there is no index file
among those or the result gets one of its own. -/
theorem C62_directory_partial (c : Conf) (hstd : c.Standard) (hsafe : c.safeSerialization = true) (size : V → Nat) (dir : FS V)
    (out : List (String × V)) (hn : (out.map Prod.fst).Nodup) (hne : out ≠ [])
    (hidx : dir "model.safetensors.index.json" = none ∨ TooBig c size out) :
    ∃ fs, applyOps (copied dir) (syncOps (session c size out)) = some fs ∧ HoldsModel fs out := by
  apply C67_used_directory_partial c hstd size out hn hne (copied dir)
  · rw [if_pos hsafe]
    refine hidx.imp ?_ id
    intro h
    rw [copied, h, ite_self]
  · intro h; rw [hsafe] at h; exact absurd h (by decide)

open Verif.Writer in
/-- What a reader of the directory gets for a name. -/
def readName (fs : FS Nat) (name : String) : Option Nat :=
  match fromDisk fs with
  | .ok idx =>
    match (getTensor fs idx none name [] true).1 with
    | .ok (some t) => some t
    | _ => none
  | .error _ => none

open Verif.Writer in
theorem readName_holds {fs : FS Nat} {saves : List (String × Nat)} (h : HoldsModel fs saves) {e : String × Nat} (he : e ∈ saves) :
    readName fs e.1 = some e.2 := by
  obtain ⟨idx, h1, _, h3⟩ := h
  have h4 := h3 [] e.1 e.2 [] true he
  simp only [afterHistory] at h4
  simp only [readName, h1, h4]

open Verif.Writer in
/-- Write a model with one limit, copy its other files and write it again with another limit. -/
def rewritten (l l' : Int) (m : List (String × Nat)) : Option (FS Nat) :=
  (applyOps (fun _ => none) (syncOps (session ⟨l, true, none⟩ id m))).bind
    (fun dir => applyOps (copied dir) (syncOps (session ⟨l', true, none⟩ id m)))

open Verif.Writer in
/-- C62, refuted: a larger model in two shards, written again with a limit that lets it fit into one: its index file is copied, the output
directory's tensors cannot be read. -/
theorem C62_stale_index : ∃ fs, rewritten 10 100 [("a", 7), ("b", 8)] = some fs ∧ ¬ HoldsModel fs [("a", 7), ("b", 8)] := by
  have h : (rewritten 10 100 [("a", 7), ("b", 8)]).map (fun fs => readName fs "a") = some none := by decide +kernel
  obtain ⟨fs, h1, h2⟩ := Option.map_eq_some_iff.1 h
  refine ⟨fs, h1, fun hh => ?_⟩
  have := readName_holds hh (e := ("a", 7)) (by simp)
  rw [h2] at this
  exact absurd this (by simp)

open Verif.Writer in
/-- With the old limit all is well. -/
example : TooBig ⟨10, true, none⟩ id [("a", 7), ("b", 8)] ∧
    (rewritten 10 10 [("a", 7), ("b", 8)]).map (fun fs => (readName fs "a", readName fs "b")) = some (some 7, some 8) := by
  refine ⟨⟨by decide, by decide, by decide⟩, by decide +kernel⟩

end Verif.Fill
