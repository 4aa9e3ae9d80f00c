import Verif.Model.LoraWhole
import Verif.Props.Lora
import Verif.Props.LoraPlan
import Verif.Props.LoraFiles
import Verif.Proof.SvdExists

/-! # C129: an adapter that was extracted gives the fine-tuned model back -/

namespace Verif.Lora

open Matrix
open Verif.ModelRef (Str)

/-! ## What is claimed -/

/-- A module that has to be saved at full rank. -/
def Whole (o : Opts) (m : Module) : Prop := EmbedReason o m ∨ KindReason o m

/-- A module that has to be decomposed. -/
def Split (o : Opts) (m : Module) : Prop := ¬ Whole o m ∧ Decomposed o m

/-- Names PEFT can tell apart: no decomposed module's name ends in that of a module saved at full rank, none is another's behind a dot, and none ends like one
that has neither. -/
structure Apart (o : Opts) (ms : List Module) : Prop where
  whole : ∀ m ∈ ms, ∀ m' ∈ ms, Split o m → Whole o m' → ¬ lastPart m'.name <:+ m.name
  nested : ∀ m ∈ ms, ∀ m' ∈ ms, Split o m → Split o m' → ¬ ('.' :: m'.name) <:+ m.name
  kinds : ∀ m ∈ ms, ∀ m' ∈ ms, ¬ Whole o m → m.kind = .other → Split o m' → lastPart m.name ≠ lastPart m'.name

/-- The singular values of a difference of two matrices. -/
noncomputable def singular (svd : ∀ m n, Matrix (Fin m) (Fin n) ℝ → Svd m n) (emb : Bool) {r c : Nat} (d : Matrix (Fin r) (Fin c) ℝ) : List ℝ :=
  if emb then List.ofFn (svd c r dᵀ).s else List.ofFn (svd r c d).s

/-- The rank allowed is enough: all singular values that are not zero are kept, and at least one is kept. -/
def RankEnough (maxRank : Nat) (eps : ℝ) (l : List ℝ) : Prop :=
  (∀ i x, l[i]? = some x → x ≠ 0 → i < maxRank ∧ (0 < eps → eps < x)) ∧ ∃ x, l[0]? = some x ∧ 0 < maxRank ∧ (0 < eps → eps < x)

/-! ## Matrices -/

theorem mat_at {r c : Nat} (X : Matrix (Fin r) (Fin c) ℝ) (i : Fin r) (j : Fin c) : (Mat.mk r c X).at i j = X i j := by
  unfold Mat.at
  rw [dif_pos ⟨i.2, j.2⟩]

theorem mat_sub {r c : Nat} (X Y : Matrix (Fin r) (Fin c) ℝ) : Mat.mk r c Y - Mat.mk r c X = Mat.mk r c (Y - X) := by
  show Mat.mk r c _ = _
  congr 1
  funext i j
  rw [mat_at]
  rfl

theorem mat_plus {r c : Nat} (X Y : Matrix (Fin r) (Fin c) ℝ) : (Mat.mk r c X).plus (Mat.mk r c Y) = Mat.mk r c (X + Y) := by
  unfold Mat.plus
  congr 1
  funext i j
  show X i j + _ = _
  rw [mat_at]
  rfl

theorem mat_product {m n k ρ : Nat} (h : ρ ≠ 0) (A : Matrix (Fin k) (Fin n) ℝ) (B : Matrix (Fin m) (Fin k) ℝ) :
    Mat.product false ρ ρ ⟨k, n, A⟩ ⟨m, k, B⟩ = ⟨m, n, B * A⟩ ∧ Mat.product true ρ ρ ⟨k, n, A⟩ ⟨m, k, B⟩ = ⟨n, m, (B * A)ᵀ⟩ := by
  have hp : (fun (i : Fin m) (j : Fin n) => ((ρ : ℝ) / ρ) * ∑ x : Fin k, B i x * (Mat.mk k n A).at x j) = B * A := by
    funext i j
    rw [div_self (by exact_mod_cast h), one_mul, Matrix.mul_apply]
    exact Finset.sum_congr rfl (fun x _ => by rw [mat_at])
  constructor
  · show Mat.mk m n _ = _
    congr 1
  · show Mat.mk n m _ = _
    congr 1
    exact congrArg Matrix.transpose hp

section
variable {svd : ∀ m n, Matrix (Fin m) (Fin n) ℝ → Svd m n} (hsvd : ∀ m n M, IsSvd M (svd m n M).u (svd m n M).s (svd m n M).vh)
include hsvd

/-- If the rank is enough the product is the matrix. -/
theorem product_all {m n : Nat} (M : Matrix (Fin m) (Fin n) ℝ) {maxRank : Nat} {eps : ℝ} (h : RankEnough maxRank eps (List.ofFn (svd m n M).s)) (distribute : Bool) :
    rankOf maxRank eps (svd m n M).s ≠ 0 ∧
    weightB (rankOf_le maxRank eps (svd m n M).s) distribute (svd m n M).s (svd m n M).u * weightA (rankOf_le maxRank eps (svd m n M).s) distribute (svd m n M).s (svd m n M).vh = M := by
  have hs := hsvd m n M
  constructor
  · obtain ⟨x, hx, h1, h2⟩ := h.2
    rw [List.getElem?_ofFn] at hx
    split at hx
    · rename_i hk
      cases hx
      have := (C59_rank hs maxRank eps ⟨0, hk⟩).2 ⟨h1, h2⟩
      simp only at this
      omega
    · cases hx
  · rw [product_upTo _ distribute hs.nonneg]
    conv_rhs => rw [← hs.product]
    congr 3
    funext i
    unfold upTo
    split
    · rfl
    · rename_i hi
      by_contra hne
      refine hi ((C59_rank hs maxRank eps i).2 ?_)
      exact h.1 i.val _ (by rw [List.getElem?_ofFn, dif_pos i.2]) (fun h0 => hne h0.symm)

theorem decomp_restores {r c : Nat} {X Y : Matrix (Fin r) (Fin c) ℝ} {maxRank : Nat} {eps : ℝ} (emb : Bool) (h : RankEnough maxRank eps (singular svd emb (Y - X))) (distribute : Bool) :
    (decompMat svd maxRank eps distribute emb (Mat.mk r c Y - Mat.mk r c X)).1.rows ≠ 0 ∧
    (Mat.mk r c X).plus (Mat.product emb (decompMat svd maxRank eps distribute emb (Mat.mk r c Y - Mat.mk r c X)).1.rows
      (decompMat svd maxRank eps distribute emb (Mat.mk r c Y - Mat.mk r c X)).1.rows
      (decompMat svd maxRank eps distribute emb (Mat.mk r c Y - Mat.mk r c X)).1 (decompMat svd maxRank eps distribute emb (Mat.mk r c Y - Mat.mk r c X)).2) = Mat.mk r c Y := by
  rw [mat_sub]
  cases emb with
  | false =>
    obtain ⟨h1, h2⟩ := product_all hsvd (Y - X) h distribute
    refine ⟨h1, ?_⟩
    have := (mat_product (m := r) (n := c) h1 (weightA (rankOf_le maxRank eps (svd r c (Y - X)).s) distribute (svd r c (Y - X)).s (svd r c (Y - X)).vh)
      (weightB (rankOf_le maxRank eps (svd r c (Y - X)).s) distribute (svd r c (Y - X)).s (svd r c (Y - X)).u)).1
    rw [h2] at this
    refine (congrArg (Mat.plus ⟨r, c, X⟩) this).trans ?_
    rw [mat_plus, add_sub_cancel]
  | true =>
    obtain ⟨h1, h2⟩ := product_all hsvd (Y - X)ᵀ h distribute
    refine ⟨h1, ?_⟩
    have := (mat_product (m := c) (n := r) h1 (weightA (rankOf_le maxRank eps (svd c r (Y - X)ᵀ).s) distribute (svd c r (Y - X)ᵀ).s (svd c r (Y - X)ᵀ).vh)
      (weightB (rankOf_le maxRank eps (svd c r (Y - X)ᵀ).s) distribute (svd c r (Y - X)ᵀ).s (svd c r (Y - X)ᵀ).u)).2
    rw [h2, transpose_transpose] at this
    refine (congrArg (Mat.plus ⟨r, c, X⟩) this).trans ?_
    rw [mat_plus, add_sub_cancel]

end

/-! ## Names -/

theorem lastPart_cases (n : Str) : n = lastPart n ∨ ('.' :: lastPart n) <:+ n := by
  have h : n.reverse.takeWhile (· ≠ '.') ++ n.reverse.dropWhile (· ≠ '.') = n.reverse := List.takeWhile_append_dropWhile
  cases hd : n.reverse.dropWhile (· ≠ '.') with
  | nil =>
    left
    unfold lastPart
    rw [hd, List.append_nil] at h
    rw [h, List.reverse_reverse]
  | cons x xs =>
    right
    have hx : x = '.' := by
      have := List.head?_dropWhile_not (p := fun c => decide (c ≠ '.')) (l := n.reverse)
      rw [hd] at this
      simpa using this
    subst hx
    rw [hd] at h
    refine ⟨xs.reverse, ?_⟩
    have := congrArg List.reverse h
    rw [List.reverse_reverse, List.reverse_append, List.reverse_cons] at this
    unfold lastPart
    simpa using this

theorem lastPart_suffix (n : Str) : lastPart n <:+ n := by
  rcases lastPart_cases n with h | h
  · exact h ▸ List.suffix_refl _
  · exact (List.suffix_cons _ _).trans h

theorem lastPart_of_suffix {n t : Str} (ht : '.' ∉ t) (h : n = t ∨ ('.' :: t) <:+ n) : lastPart n = t := by
  rcases h with rfl | ⟨x, rfl⟩
  · exact lastPart_self ht
  · unfold lastPart
    rw [List.reverse_append, List.reverse_cons, List.append_assoc, List.takeWhile_append_of_pos]
    · simp
    · intro c hc
      simp only [ne_eq, decide_not, Bool.not_eq_true', decide_eq_false_iff_not]
      rintro rfl
      exact ht (List.mem_reverse.1 hc)

theorem forall₂_left {A B : Type} {R : A → B → Prop} {l : List A} {l' : List B} (h : List.Forall₂ R l l') : ∀ x ∈ l, ∃ y ∈ l', R x y := by
  induction h with
  | nil => simp
  | cons h1 _ ih =>
    intro x hx
    rcases List.mem_cons.1 hx with rfl | hx
    · exact ⟨_, List.mem_cons_self, h1⟩
    · obtain ⟨y, hy, hr⟩ := ih x hx
      exact ⟨y, List.mem_cons_of_mem _ hy, hr⟩

theorem forall₂_right {A B : Type} {R : A → B → Prop} {l : List A} {l' : List B} (h : List.Forall₂ R l l') : ∀ y ∈ l', ∃ x ∈ l, R x y :=
  forall₂_left h.flip

theorem lookup_of_nodup {B : Type} {l : List (Str × B)} (h : (l.map Prod.fst).Nodup) {x : Str × B} (hx : x ∈ l) : l.lookup x.1 = some x.2 := by
  induction l with
  | nil => cases hx
  | cons y l ih =>
    rw [List.map_cons, List.nodup_cons] at h
    rw [List.lookup_cons]
    rcases List.mem_cons.1 hx with rfl | hx
    · simp
    · have : (x.1 == y.1) = false := by
        rw [beq_eq_false_iff_ne]
        intro he
        exact h.1 (he ▸ List.mem_map.2 ⟨x, hx, rfl⟩)
      rw [this]
      exact ih h.2 hx

theorem peftValue_pos {p : List (Str × Nat)} {d : Nat} (hp : ∀ e ∈ p, e.2 ≠ 0) (hd : d ≠ 0) (n : Str) : peftValue p d n ≠ 0 := by
  unfold peftValue
  split
  · rename_i e he
    exact hp e (List.mem_of_find?_eq_some he)
  · exact hd

/-! ## The adapter -/

section
variable {T : Type} [Sub T] {arch : Str → Option Bool} {base model : Str → Option T} {decomp : Bool → T → T × T} {rows : T → Nat} {o : Opts} {ms : List Module}
  {a : Saved T}

/-- What a run that succeeded has done. -/
structure Ran (arch : Str → Option Bool) (base model : Str → Option T) (decomp : Bool → T → T × T) (rows : T → Nat) (o : Opts) (ms : List Module) (a : Saved T) : Prop where
  whole : ∀ m ∈ ms, Whole o m → (∀ w, model (m.name ++ cs!".weight") = some w → a.tensors.lookup (key m.name cs!".weight") = some w) ∧
    (∀ b, arch (m.name ++ cs!".bias") ≠ none → model (m.name ++ cs!".bias") = some b → a.tensors.lookup (key m.name cs!".bias") = some b)
  split : ∀ m ∈ ms, Split o m → ∃ b f, base (m.name ++ cs!".weight") = some b ∧ model (m.name ++ cs!".weight") = some f ∧
    peftValue a.config.rankPattern a.config.r m.name = rows (decomp (decide (m.kind = .embedding)) (f - b)).1 ∧
    peftValue a.config.alphaPattern a.config.alpha m.name = rows (decomp (decide (m.kind = .embedding)) (f - b)).1 ∧
    a.tensors.lookup (key m.name (if decide (m.kind = .embedding) then cs!".lora_embedding_A" else cs!".lora_A.weight")) =
      some (decomp (decide (m.kind = .embedding)) (f - b)).1 ∧
    a.tensors.lookup (key m.name (if decide (m.kind = .embedding) then cs!".lora_embedding_B" else cs!".lora_B.weight")) =
      some (decomp (decide (m.kind = .embedding)) (f - b)).2
  bias : ∀ m ∈ ms, Split o m → arch (m.name ++ cs!".bias") ≠ none → ∃ b f, base (m.name ++ cs!".bias") = some b ∧ model (m.name ++ cs!".bias") = some f ∧
    a.tensors.lookup (key m.name cs!".lora_B.bias") = some (f - b)
  nothing : ∀ m ∈ ms, ¬ Whole o m → ¬ Split o m → ∀ e ∈ endings, a.tensors.lookup (key m.name e) = none
  noWhole : ∀ m ∈ ms, ¬ Whole o m → a.tensors.lookup (key m.name cs!".weight") = none ∧ a.tensors.lookup (key m.name cs!".bias") = none
  save : ∀ k, k ∈ a.config.modulesToSave ↔ ∃ m ∈ ms, Whole o m ∧ k = lastPart m.name
  targets : ∀ t, t ∈ a.config.targetModules ↔ ∃ m ∈ ms, Split o m ∧ t = lastPart m.name
  positive : (∀ m ∈ ms, Split o m → ∀ b f, base (m.name ++ cs!".weight") = some b → model (m.name ++ cs!".weight") = some f →
    rows (decomp (decide (m.kind = .embedding)) (f - b)).1 ≠ 0) → ∀ n, peftValue a.config.rankPattern a.config.r n ≠ 0

theorem ranks_names (acts : List (Module × Action)) : ((ranks base model decomp rows acts).map Prod.fst).Sublist (acts.map (fun e => e.1.name)) := by
  induction acts with
  | nil => exact List.Sublist.slnil
  | cons e acts ih =>
    unfold ranks at ih ⊢
    rw [List.filterMap_cons, List.map_cons]
    split
    · exact ih.cons _
    · rename_i x hx
      rw [List.map_cons]
      have : x.1 = e.1.name := by
        split at hx
        · split at hx
          · cases hx; rfl
          · cases hx
        · cases hx
      rw [this]
      exact ih.cons_cons _

theorem mem_ranks {acts : List (Module × Action)} {x : Str × Nat} : x ∈ ranks base model decomp rows acts ↔
    ∃ m b f, (m, Action.lora) ∈ acts ∧ base (m.name ++ cs!".weight") = some b ∧ model (m.name ++ cs!".weight") = some f ∧
      x = (m.name, rows (decomp (decide (m.kind = .embedding)) (f - b)).1) := by
  unfold ranks
  rw [List.mem_filterMap]
  constructor
  · rintro ⟨⟨m, act⟩, he, hx⟩
    split at hx
    · rename_i hl
      split at hx
      · rename_i b f hb hf
        cases hx
        dsimp only at hl
        subst hl
        exact ⟨m, b, f, he, hb, hf, rfl⟩
      · cases hx
    · cases hx
  · rintro ⟨m, b, f, he, hb, hf, rfl⟩
    refine ⟨_, he, ?_⟩
    rw [if_pos rfl]
    simp only [hb, hf]

theorem ran (hu : Uniform o ms) (hnd : (ms.map (fun m => m.name)).Nodup) (hp : ∀ m ∈ ms, Plain m.name) (hap : Apart o ms)
    (h : extract arch base model decomp rows o [] ms = .ok a) : Ran arch base model decomp rows o ms a := by
  obtain ⟨save, acts, hpl, hfst, hright, hkeys⟩ := C79_unlisted_partial hu
  unfold extract at h
  rw [hpl] at h
  simp only at h
  cases had : adapter arch base model decomp acts with
  | error e => rw [had] at h; cases h
  | ok ts =>
    rw [had] at h
    simp only at h
    cases hc : makeConfig (ranks base model decomp rows acts) save with
    | error e => rw [hc] at h; cases h
    | ok c =>
      rw [hc] at h
      cases h
      have hmem : ∀ e ∈ acts, e.1 ∈ ms := fun e he => hfst ▸ List.mem_map.2 ⟨e, he, rfl⟩
      have hnames : acts.map (fun e => e.1.name) = ms.map (fun m => m.name) := by rw [← hfst, List.map_map]; rfl
      have hact : ∀ m ∈ ms, ∃ act, (m, act) ∈ acts := by
        intro m hm
        rw [← hfst] at hm
        obtain ⟨⟨m', act⟩, he, rfl⟩ := List.mem_map.1 hm
        exact ⟨act, he⟩
      have hplain : ∀ e ∈ acts, Plain e.1.name := fun e he => hp _ (hmem e he)
      have hdist := C80_distinct (hnames ▸ hnd) hplain had
      have hlook : ∀ x ∈ ts, ts.lookup x.1 = some x.2 := fun x hx => lookup_of_nodup hdist hx
      obtain ⟨os, hos, hfl⟩ := C80_all.1 had
      have hsaved : ∀ e ∈ acts, ∃ out, saveModule arch base model decomp e = .ok out ∧ ∀ x ∈ out, x ∈ ts := by
        intro e he
        obtain ⟨out, ho, hs⟩ := forall₂_left hos e he
        exact ⟨out, hs, fun x hx => hfl ▸ List.mem_flatten.2 ⟨out, ho, hx⟩⟩
      have habs : ∀ e ∈ acts, ∀ out, saveModule arch base model decomp e = .ok out → ∀ k ∈ endings, inAdapter e.1.name k ∉ out.map Prod.fst →
          ts.lookup (inAdapter e.1.name k) = none := by
        intro e he out hs k hk hno
        rw [List.lookup_eq_none_iff]
        intro x hx
        rw [bne_iff_ne]
        intro hxe
        rw [hfl] at hx
        obtain ⟨out', ho', hx'⟩ := List.mem_flatten.1 hx
        obtain ⟨e', he', hs'⟩ := forall₂_right hos out' ho'
        obtain ⟨es, _, hes, hm⟩ := saveModule_names hs'
        have : x.1 ∈ out'.map Prod.fst := List.mem_map.2 ⟨x, hx', rfl⟩
        rw [hm] at this
        obtain ⟨k', hk', hkk⟩ := List.mem_map.1 this
        have hn := (inAdapter_inj (hplain e he) (hplain e' he') hk (hes k' hk') (hxe.trans hkk.symm)).1
        have : e = e' := List.inj_on_of_nodup_map (hnames ▸ hnd) he he' hn
        subst this
        rw [hs] at hs'
        cases hs'
        exact hno (List.mem_map.2 ⟨x, hx', hxe.symm⟩)
      have hfull : ∀ m ∈ ms, Whole o m → (m, Action.full) ∈ acts := by
        intro m hm hw
        obtain ⟨act, he⟩ := hact m hm
        rcases hright _ he with ⟨_, rfl⟩ | ⟨hn, _⟩ | ⟨hn, _⟩
        · exact he
        · exact absurd hw hn
        · exact absurd hw hn
      have hlora : ∀ m ∈ ms, Split o m → (m, Action.lora) ∈ acts := by
        intro m hm hw
        obtain ⟨act, he⟩ := hact m hm
        rcases hright _ he with ⟨hn, _⟩ | ⟨_, _, rfl⟩ | ⟨_, hn, _⟩
        · exact absurd hn hw.1
        · exact he
        · exact absurd hw.2 hn
      have hnone : ∀ m ∈ ms, ¬ Whole o m → ¬ Split o m → (m, Action.nothing) ∈ acts := by
        intro m hm h1 h2
        obtain ⟨act, he⟩ := hact m hm
        rcases hright _ he with ⟨hn, _⟩ | ⟨hn, hd, _⟩ | ⟨_, _, rfl⟩
        · exact absurd hn h1
        · exact absurd ⟨hn, hd⟩ h2
        · exact he
      have hsplit : ∀ m, (m, Action.lora) ∈ acts → Split o m := by
        intro m he
        rcases hright _ he with ⟨_, hn⟩ | ⟨hn, hd, _⟩ | ⟨_, _, hn⟩
        · cases hn
        · exact ⟨hn, hd⟩
        · cases hn
      have hrn : ((ranks base model decomp rows acts).map Prod.fst).Nodup := (ranks_names acts).nodup (hnames ▸ hnd)
      have hun : Unnested (ranks base model decomp rows acts) := by
        intro x hx y hy
        obtain ⟨m, _, _, hm, _, _, rfl⟩ := mem_ranks.1 hx
        obtain ⟨m', _, _, hm', _, _, rfl⟩ := mem_ranks.1 hy
        exact hap.nested m (hmem _ hm) m' (hmem _ hm') (hsplit m hm) (hsplit m' hm')
      obtain ⟨hsv, hrec⟩ := C59_recorded_partial hrn hun hc
      refine ⟨?_, ?_, ?_, ?_, ?_, ?_, ?_, ?_⟩
      · intro m hm hw
        obtain ⟨out, hs, hsub⟩ := hsaved _ (hfull m hm hw)
        simp only [saveModule] at hs
        obtain ⟨_, _, rfl⟩ := C80_full.1 hs
        constructor
        · intro w hmw
          refine hlook (key m.name cs!".weight", w) (hsub _ (List.mem_append_left _ ?_))
          rw [hmw]
          exact List.mem_singleton_self _
        · intro b hb hmb
          refine hlook (key m.name cs!".bias", b) (hsub _ (List.mem_append_right _ ?_))
          rw [if_neg hb, hmb]
          exact List.mem_singleton_self _
      · intro m hm hw
        have hl := hlora m hm hw
        obtain ⟨out, hs, hsub⟩ := hsaved _ hl
        simp only [saveModule] at hs
        obtain ⟨x, y, hx, hy, hor⟩ := C80_lora_partial.1 hs
        have hr := hrec _ (mem_ranks.2 ⟨m, x, y, hl, hx, hy, rfl⟩)
        have hin : ∀ z ∈ pairEntries (decide (m.kind = .embedding)) m.name (decomp (decide (m.kind = .embedding)) (y - x)), z ∈ out := by
          intro z hz
          rcases hor with ⟨_, rfl⟩ | ⟨_, _, _, _, _, rfl⟩
          · exact hz
          · exact List.mem_append_left _ hz
        refine ⟨x, y, hx, hy, hr.1, hr.2.1, ?_, ?_⟩
        · exact hlook (_, _) (hsub _ (hin _ (by simp only [pairEntries]; exact List.mem_cons_self)))
        · exact hlook (_, _) (hsub _ (hin _ (by simp only [pairEntries]; exact List.mem_cons_of_mem _ List.mem_cons_self)))
      · intro m hm hw hb
        obtain ⟨out, hs, hsub⟩ := hsaved _ (hlora m hm hw)
        simp only [saveModule] at hs
        obtain ⟨x, y, hx, hy, ⟨hn, _⟩ | ⟨_, xb, yb, h1, h2, rfl⟩⟩ := C80_lora_partial.1 hs
        · exact absurd hn hb
        · exact ⟨xb, yb, h1, h2, hlook (_, _) (hsub _ (List.mem_append_right _ (List.mem_singleton_self _)))⟩
      · intro m hm h1 h2 k hk
        exact habs _ (hnone m hm h1 h2) [] rfl k hk (by simp)
      · intro m hm h1
        by_cases h2 : Split o m
        · have hl := hlora m hm h2
          obtain ⟨out, hs, _⟩ := hsaved _ hl
          have hs' := hs
          simp only [saveModule] at hs'
          have hne : ∀ k ∈ [cs!".weight", cs!".bias"], inAdapter m.name k ∉ out.map Prod.fst := by
            intro k hk hin
            have hke : k ∈ endings := by
              simp only [List.mem_cons, List.not_mem_nil, or_false] at hk
              rcases hk with rfl | rfl <;> simp [endings]
            have hcase : ∃ k' ∈ [cs!".lora_embedding_A", cs!".lora_A.weight", cs!".lora_embedding_B", cs!".lora_B.weight", cs!".lora_B.bias"],
                inAdapter m.name k = inAdapter m.name k' := by
              obtain ⟨z, hz, hzk⟩ := List.mem_map.1 hin
              obtain ⟨x, y, hx, hy, hor⟩ := C80_lora_partial.1 hs'
              have hz' : z ∈ pairEntries (decide (m.kind = .embedding)) m.name (decomp (decide (m.kind = .embedding)) (y - x)) ∨ z.1 = inAdapter m.name cs!".lora_B.bias" := by
                rcases hor with ⟨_, rfl⟩ | ⟨_, _, _, _, _, rfl⟩
                · exact Or.inl hz
                · rcases List.mem_append.1 hz with hz | hz
                  · exact Or.inl hz
                  · exact Or.inr (by rw [List.mem_singleton.1 hz])
              rcases hz' with hz' | hz'
              · simp only [pairEntries, List.mem_cons, List.not_mem_nil, or_false] at hz'
                rcases hz' with rfl | rfl
                · refine ⟨_, ?_, hzk.symm⟩
                  cases decide (m.kind = .embedding) <;> simp
                · refine ⟨_, ?_, hzk.symm⟩
                  cases decide (m.kind = .embedding) <;> simp
              · exact ⟨_, by simp, hzk.symm.trans hz'⟩
            obtain ⟨k', hk', heq⟩ := hcase
            have hke' : k' ∈ endings := by
              simp only [List.mem_cons, List.not_mem_nil, or_false] at hk'
              rcases hk' with rfl | rfl | rfl | rfl | rfl <;> simp [endings]
            have := (inAdapter_inj (hp m hm) (hp m hm) hke hke' heq).2
            subst this
            have hdis : ∀ k ∈ [cs!".weight", cs!".bias"], k ∉ [cs!".lora_embedding_A", cs!".lora_A.weight", cs!".lora_embedding_B", cs!".lora_B.weight", cs!".lora_B.bias"] := by
              decide
            exact hdis k hk hk'
          exact ⟨habs _ hl out hs _ (by simp [endings]) (hne _ (by simp)), habs _ hl out hs _ (by simp [endings]) (hne _ (by simp))⟩
        · have hl := hnone m hm h1 h2
          exact ⟨habs _ hl [] rfl _ (by simp [endings]) (by simp), habs _ hl [] rfl _ (by simp [endings]) (by simp)⟩
      · intro k
        rw [hsv]
        exact hkeys k
      · intro t
        have ht : t ∈ c.targetModules ↔ ∃ x ∈ ranks base model decomp rows acts, lastPart x.1 = t := by
          unfold makeConfig at hc
          split at hc
          · cases hc
          · rename_i e es hr
            cases hc
            rw [List.mem_eraseDups, List.mem_map, hr]
        rw [ht]
        constructor
        · rintro ⟨x, hx, rfl⟩
          obtain ⟨m, _, _, hm, _, _, rfl⟩ := mem_ranks.1 hx
          exact ⟨m, hmem _ hm, hsplit m hm, rfl⟩
        · rintro ⟨m, hm, hw, rfl⟩
          have hl := hlora m hm hw
          obtain ⟨out, hs, _⟩ := hsaved _ hl
          simp only [saveModule] at hs
          obtain ⟨x, y, hx, hy, _⟩ := C80_lora_partial.1 hs
          exact ⟨_, mem_ranks.2 ⟨m, x, y, hl, hx, hy, rfl⟩, rfl⟩
      · intro hpos n
        have hall : ∀ x ∈ ranks base model decomp rows acts, x.2 ≠ 0 := by
          intro x hx
          obtain ⟨m, b, f, hm, hb, hf, rfl⟩ := mem_ranks.1 hx
          exact hpos m (hmem _ hm) (hsplit m hm) b f hb hf
        unfold makeConfig at hc
        split at hc
        · cases hc
        · rename_i e es hr
          cases hc
          dsimp only
          refine peftValue_pos (fun x hx => hall x (hr ▸ (List.mem_filter.1 hx).1)) ?_ n
          have h0 := hall e (hr ▸ List.mem_cons_self)
          have := (foldl_max_ge (es.map Prod.snd) e.2).1
          omega

/-! ## Loading it -/

theorem replaced_iff {c : Config} {m : Module} : replaced c m = true ↔ ∃ k ∈ c.modulesToSave, k <:+ m.name := by
  unfold replaced
  simp [List.any_eq_true, List.isSuffixOf_iff_suffix]

theorem targeted_iff {c : Config} {m : Module} : targeted c m = true ↔ ∃ t ∈ c.targetModules, m.name = t ∨ ('.' :: t) <:+ m.name := by
  unfold targeted
  simp [List.any_eq_true, List.isSuffixOf_iff_suffix]

variable {plus : T → T → T} {product : Bool → Nat → Nat → T → T → T}

/-- What PEFT makes of the modules. -/
theorem load_all (hw : ∀ m ∈ ms, m.hasWeight = true → ∃ w, peftWeight plus product base a m = .ok w) :
    ∃ out, peftLoad plus product base a ms = .ok out ∧ out.map Prod.fst = (ms.filter (fun m => m.hasWeight)).map (fun m => m.name) ∧
      ∀ m ∈ ms, m.hasWeight = true → ∀ w, peftWeight plus product base a m = .ok w → (m.name, w, peftBias base a m) ∈ out := by
  induction ms with
  | nil => exact ⟨[], rfl, rfl, by simp⟩
  | cons x ms ih =>
    obtain ⟨out, h1, h2, h3⟩ := ih (fun m hm => hw m (List.mem_cons_of_mem _ hm))
    unfold peftLoad
    cases hx : x.hasWeight with
    | false =>
      refine ⟨out, ?_, ?_, ?_⟩
      · simpa using h1
      · rw [List.filter_cons_of_neg (by simp [hx])]
        exact h2
      · intro m hm hmw
        rcases List.mem_cons.1 hm with rfl | hm
        · rw [hx] at hmw; cases hmw
        · exact h3 m hm hmw
    | true =>
      obtain ⟨w, hxw⟩ := hw x List.mem_cons_self hx
      refine ⟨(x.name, w, peftBias base a x) :: out, ?_, ?_, ?_⟩
      · simp [hxw, h1]
      · rw [List.filter_cons_of_pos (by simp [hx]), List.map_cons, List.map_cons, h2]
      · intro m hm hmw w' hw'
        rcases List.mem_cons.1 hm with rfl | hm
        · rw [hxw] at hw'
          cases hw'
          exact List.mem_cons_self
        · exact List.mem_cons_of_mem _ (h3 m hm hmw w' hw')

theorem load_error {m : Module} (hm : m ∈ ms) (hmw : m.hasWeight = true) {e : PeftErr} (he : peftWeight plus product base a m = .error e) :
    ∃ e', peftLoad plus product base a ms = .error e' := by
  induction ms with
  | nil => cases hm
  | cons x ms ih =>
    unfold peftLoad
    rcases List.mem_cons.1 hm with rfl | hm
    · simp [hmw, he]
    · obtain ⟨e', he'⟩ := ih hm
      rw [he']
      split
      · split
        · exact ⟨_, rfl⟩
        · exact ⟨_, rfl⟩
      · exact ⟨_, rfl⟩

theorem replaced_whole (hr : Ran arch base model decomp rows o ms a) {m : Module} (hm : m ∈ ms) (hw : Whole o m) : replaced a.config m = true :=
  replaced_iff.2 ⟨_, (hr.save _).2 ⟨m, hm, hw, rfl⟩, lastPart_suffix _⟩

theorem replaced_split (hr : Ran arch base model decomp rows o ms a) (hap : Apart o ms) {m : Module} (hm : m ∈ ms) (hw : Split o m) : replaced a.config m = false := by
  rw [Bool.eq_false_iff]
  intro h
  obtain ⟨k, hk, hs⟩ := replaced_iff.1 h
  obtain ⟨m', hm', hw', rfl⟩ := (hr.save _).1 hk
  exact hap.whole m hm m' hm' hw hw' hs

theorem targeted_split (hr : Ran arch base model decomp rows o ms a) {m : Module} (hm : m ∈ ms) (hw : Split o m) : targeted a.config m = true :=
  targeted_iff.2 ⟨_, (hr.targets _).2 ⟨m, hm, hw, rfl⟩, lastPart_cases _⟩

theorem weight_whole (hr : Ran arch base model decomp rows o ms a) {m : Module} (hm : m ∈ ms) (hw : Whole o m) {w : T} (hf : model (m.name ++ cs!".weight") = some w) :
    peftWeight plus product base a m = .ok (some w) := by
  unfold peftWeight
  rw [if_pos (replaced_whole hr hm hw), (hr.whole m hm hw).1 w hf]

theorem bias_whole (hr : Ran arch base model decomp rows o ms a) {m : Module} (hm : m ∈ ms) (hw : Whole o m) (ha : arch (m.name ++ cs!".bias") ≠ none) {b : T}
    (hf : model (m.name ++ cs!".bias") = some b) : peftBias base a m = some b := by
  unfold peftBias
  rw [if_pos (replaced_whole hr hm hw), (hr.whole m hm hw).2 b ha hf]

theorem bias_other (hr : Ran arch base model decomp rows o ms a) {m : Module} (hm : m ∈ ms) (hw : ¬ Whole o m) : peftBias base a m = base (m.name ++ cs!".bias") := by
  unfold peftBias
  rw [(hr.noWhole m hm hw).2]
  split <;> rfl

theorem weight_nothing (hr : Ran arch base model decomp rows o ms a) (hap : Apart o ms) (hpos : ∀ n, peftValue a.config.rankPattern a.config.r n ≠ 0) {m : Module} (hm : m ∈ ms)
    (h1 : ¬ Whole o m) (h2 : ¬ Split o m) : peftWeight plus product base a m = .ok (base (m.name ++ cs!".weight")) := by
  unfold peftWeight
  rw [(hr.noWhole m hm h1).1]
  split
  · rfl
  · split
    · rename_i ht
      rw [if_neg, if_neg (hpos _)]
      · have hA : a.tensors.lookup (key m.name (if decide (m.kind = .embedding) then cs!".lora_embedding_A" else cs!".lora_A.weight")) = none := by
          apply hr.nothing m hm h1 h2
          split <;> simp [endings]
        simp only [hA]
      · intro hk
        obtain ⟨t, ht, hs⟩ := targeted_iff.1 ht
        obtain ⟨m', hm', hw', rfl⟩ := (hr.targets _).1 ht
        exact hap.kinds m hm m' hm' h1 hk hw' (lastPart_of_suffix (lastPart_dot _) hs)
    · rfl

theorem weight_split (hr : Ran arch base model decomp rows o ms a) (hap : Apart o ms) {m : Module} (hm : m ∈ ms) (hw : Split o m) {b f : T}
    (hb : base (m.name ++ cs!".weight") = some b) (hf : model (m.name ++ cs!".weight") = some f) :
    peftWeight plus product base a m = if rows (decomp (decide (m.kind = .embedding)) (f - b)).1 = 0 then .error .rank else
      .ok (some (plus b (product (decide (m.kind = .embedding)) (rows (decomp (decide (m.kind = .embedding)) (f - b)).1) (rows (decomp (decide (m.kind = .embedding)) (f - b)).1)
        (decomp (decide (m.kind = .embedding)) (f - b)).1 (decomp (decide (m.kind = .embedding)) (f - b)).2))) := by
  obtain ⟨b', f', hb', hf', h1, h2, h3, h4⟩ := hr.split m hm hw
  rw [hb] at hb'
  cases hb'
  rw [hf] at hf'
  cases hf'
  unfold peftWeight
  rw [if_neg (by rw [replaced_split hr hap hm hw]; exact Bool.false_ne_true), if_pos (targeted_split hr hm hw), if_neg hw.2.2.1, h1, h2]
  simp only [h3, h4, hb, Option.map_some]

end

/-! ## The property -/

section
variable {svd : ∀ m n, Matrix (Fin m) (Fin n) ℝ → Svd m n} {maxRank : Nat} {eps : ℝ} {distribute : Bool}
  {arch : Str → Option Bool} {base model : Str → Option Mat} {o : Opts} {ms : List Module} {a : Saved Mat}

/-- C129: loading the adapter on the base model gives the fine-tuned model's weight for every module that was to be saved or decomposed (if the rank allowed is
enough), the base model's for the others; and the fine-tuned model's bias for modules saved at full rank, the base model's for the others. -/
theorem C129_restores_partial (hsvd : ∀ m n M, IsSvd M (svd m n M).u (svd m n M).s (svd m n M).vh)
    (hu : Uniform o ms) (hnd : (ms.map (fun m => m.name)).Nodup) (hp : ∀ m ∈ ms, Plain m.name) (hap : Apart o ms)
    (h : extract arch base model (decompMat svd maxRank eps distribute) Mat.rows o [] ms = .ok a)
    (hrank : ∀ m ∈ ms, Split o m → ∃ (r c : Nat) (X Y : Matrix (Fin r) (Fin c) ℝ), base (m.name ++ cs!".weight") = some ⟨r, c, X⟩ ∧
      model (m.name ++ cs!".weight") = some ⟨r, c, Y⟩ ∧ RankEnough maxRank eps (singular svd (decide (m.kind = .embedding)) (Y - X)))
    (hhas : ∀ m ∈ ms, Whole o m → model (m.name ++ cs!".weight") ≠ none) :
    ∃ out, peftLoad Mat.plus Mat.product base a ms = .ok out ∧
      out.map Prod.fst = (ms.filter (fun m => m.hasWeight)).map (fun m => m.name) ∧
      ∀ m ∈ ms, m.hasWeight = true → ∃ w b, (m.name, w, b) ∈ out ∧
        (Whole o m ∨ Decomposed o m → w = model (m.name ++ cs!".weight")) ∧
        (¬ Whole o m → ¬ Decomposed o m → w = base (m.name ++ cs!".weight")) ∧
        (Whole o m → arch (m.name ++ cs!".bias") ≠ none → model (m.name ++ cs!".bias") ≠ none → b = model (m.name ++ cs!".bias")) ∧
        (¬ Whole o m → b = base (m.name ++ cs!".bias")) := by
  have hr := ran hu hnd hp hap h
  have hpos := hr.positive (by
    intro m hm hw b f hb hf
    obtain ⟨r, c, X, Y, hb', hf', hre⟩ := hrank m hm hw
    rw [hb] at hb'
    cases hb'
    rw [hf] at hf'
    cases hf'
    exact (decomp_restores hsvd _ hre distribute).1)
  have hweight : ∀ m ∈ ms, ∃ w, peftWeight Mat.plus Mat.product base a m = .ok w ∧ (Whole o m ∨ Decomposed o m → w = model (m.name ++ cs!".weight")) ∧
        (¬ Whole o m → ¬ Decomposed o m → w = base (m.name ++ cs!".weight")) := by
    intro m hm
    by_cases hw : Whole o m
    · obtain ⟨w, hf⟩ := Option.ne_none_iff_exists'.1 (hhas m hm hw)
      exact ⟨_, weight_whole hr hm hw hf, fun _ => hf.symm, fun hn => absurd hw hn⟩
    · by_cases hd : Decomposed o m
      · obtain ⟨r, c, X, Y, hb, hf, hre⟩ := hrank m hm ⟨hw, hd⟩
        obtain ⟨h1, h2⟩ := decomp_restores hsvd _ hre distribute
        have := weight_split (plus := Mat.plus) (product := Mat.product) hr hap hm ⟨hw, hd⟩ hb hf
        rw [if_neg h1, h2] at this
        exact ⟨_, this, fun _ => hf.symm, fun _ hn => absurd hd hn⟩
      · exact ⟨_, weight_nothing hr hap hpos hm hw (fun hs => hd hs.2), fun hn => (hn.elim hw hd).elim, fun _ _ => rfl⟩
  obtain ⟨out, h1, h2, h3⟩ := load_all (ms := ms) (fun m hm _ => (hweight m hm).imp (fun _ h => h.1))
  refine ⟨out, h1, h2, ?_⟩
  intro m hm hmw
  obtain ⟨w, hw1, hw2, hw3⟩ := hweight m hm
  refine ⟨w, _, h3 m hm hmw w hw1, hw2, hw3, ?_, bias_other hr hm⟩
  intro hw ha hn
  obtain ⟨b, hf⟩ := Option.ne_none_iff_exists'.1 hn
  rw [bias_whole hr hm hw ha hf, hf]

/-- C129: without a threshold a difference of rank at most `--max-rank` needs no more. -/
theorem C129_low_rank {r c : Nat} {D : Matrix (Fin r) (Fin c) ℝ} (hsvd : ∀ m n M, IsSvd M (svd m n M).u (svd m n M).s (svd m n M).vh) (heps : eps ≤ 0) (hmax : 0 < maxRank)
    (hr : 0 < r) (hc : 0 < c) (hD : ∃ (b : Matrix (Fin r) (Fin maxRank) ℝ) (a : Matrix (Fin maxRank) (Fin c) ℝ), D = b * a) (emb : Bool) :
    RankEnough maxRank eps (singular svd emb D) := by
  have key : ∀ (m n : Nat) (M : Matrix (Fin m) (Fin n) ℝ), 0 < m → 0 < n → (∃ (b : Matrix (Fin m) (Fin maxRank) ℝ) (a : Matrix (Fin maxRank) (Fin n) ℝ), M = b * a) →
      RankEnough maxRank eps (List.ofFn (svd m n M).s) := by
    intro m n M hm hn hM
    refine ⟨?_, ?_⟩
    · intro i x hx hne
      refine ⟨?_, fun h => absurd h (not_lt.2 heps)⟩
      rw [List.getElem?_ofFn] at hx
      split at hx
      · rename_i hi
        cases hx
        by_contra hlt
        have hle : maxRank ≤ min m n := by omega
        have he := C59_error (hsvd m n M) hle false
        rw [C59_exact (hsvd m n M) hle false hM, sub_self] at he
        have h0 : sumSq (0 : Matrix (Fin m) (Fin n) ℝ) = 0 := by simp [sumSq]
        rw [h0] at he
        have := (Finset.sum_eq_zero_iff_of_nonneg (fun i _ => by split <;> positivity)).1 he.symm ⟨i, hi⟩ (Finset.mem_univ _)
        rw [if_neg hlt] at this
        exact hne (pow_eq_zero_iff (two_ne_zero) |>.1 this)
      · cases hx
    · have h0 : 0 < min m n := by omega
      exact ⟨(svd m n M).s ⟨0, h0⟩, by rw [List.getElem?_ofFn, dif_pos h0], hmax, fun h => absurd h (not_lt.2 heps)⟩
  unfold singular
  obtain ⟨b, a, rfl⟩ := hD
  split
  · exact key c r _ hc hr ⟨aᵀ, bᵀ, transpose_mul _ _⟩
  · exact key r c _ hr hc ⟨b, a, rfl⟩

theorem sumSq_transpose {r c : Nat} (M : Matrix (Fin r) (Fin c) ℝ) : sumSq Mᵀ = sumSq M := by
  unfold sumSq
  exact Finset.sum_comm

/-- C129: and if the difference has a higher rank, no other adapter of that rank comes closer to the fine-tuned weight. -/
theorem C129_closest_partial (hsvd : ∀ m n M, IsSvd M (svd m n M).u (svd m n M).s (svd m n M).vh)
    (hu : Uniform o ms) (hnd : (ms.map (fun m => m.name)).Nodup) (hp : ∀ m ∈ ms, Plain m.name) (hap : Apart o ms)
    (h : extract arch base model (decompMat svd maxRank eps distribute) Mat.rows o [] ms = .ok a) (heps : eps ≤ 0) (hmax : 0 < maxRank)
    {m : Module} (hm : m ∈ ms) (hw : Split o m) {r c : Nat} (hr : 0 < r) (hc : 0 < c) {X Y : Matrix (Fin r) (Fin c) ℝ} (hb : base (m.name ++ cs!".weight") = some ⟨r, c, X⟩)
    (hf : model (m.name ++ cs!".weight") = some ⟨r, c, Y⟩) :
    ∃ Z : Matrix (Fin r) (Fin c) ℝ, peftWeight Mat.plus Mat.product base a m = .ok (some ⟨r, c, Z⟩) ∧
      ∀ (B : Matrix (Fin r) (Fin maxRank) ℝ) (A : Matrix (Fin maxRank) (Fin c) ℝ), sumSq (Y - Z) ≤ sumSq (Y - (X + B * A)) := by
  have hran := ran hu hnd hp hap h
  have hwt := weight_split (plus := Mat.plus) (product := Mat.product) hran hap hm hw hb hf
  -- the pair for one matrix
  have key : ∀ (m n : Nat) (M : Matrix (Fin m) (Fin n) ℝ), 0 < m → 0 < n → rankOf maxRank eps (svd m n M).s ≠ 0 ∧
      ∀ (B : Matrix (Fin m) (Fin maxRank) ℝ) (A : Matrix (Fin maxRank) (Fin n) ℝ),
        sumSq (M - weightB (rankOf_le maxRank eps (svd m n M).s) distribute (svd m n M).s (svd m n M).u *
          weightA (rankOf_le maxRank eps (svd m n M).s) distribute (svd m n M).s (svd m n M).vh) ≤ sumSq (M - B * A) := by
    intro m n M hm hn
    have hr : rankOf maxRank eps (svd m n M).s = min maxRank (min m n) := by rw [rankOf, if_neg (not_lt.2 heps)]
    refine ⟨by rw [hr]; omega, ?_⟩
    intro B A
    by_cases hle : min m n ≤ maxRank
    · rw [C59_full_rank (hsvd m n M) maxRank hle eps heps distribute, sub_self]
      have h0 : sumSq (0 : Matrix (Fin m) (Fin n) ℝ) = 0 := by simp [sumSq]
      rw [h0]
      exact sumSq_nonneg _
    · have hr' : rankOf maxRank eps (svd m n M).s = maxRank := by omega
      have : ∀ k, ∀ hk : k ≤ min m n, k = maxRank → sumSq (M - weightB hk distribute (svd m n M).s (svd m n M).u * weightA hk distribute (svd m n M).s (svd m n M).vh) ≤ sumSq (M - B * A) := by
        intro k hk he
        subst he
        exact C59_best (hsvd m n M) hk distribute B A
      exact this _ _ hr'
  rw [mat_sub] at hwt
  cases hemb : decide (m.kind = .embedding) with
  | false =>
    rw [hemb] at hwt
    obtain ⟨h1, h2⟩ := key r c (Y - X) hr hc
    rw [if_neg (show ((decompMat svd maxRank eps distribute false ⟨r, c, Y - X⟩).1.rows ≠ 0) from h1)] at hwt
    have hprod := (mat_product (m := r) (n := c) h1 (weightA (rankOf_le maxRank eps (svd r c (Y - X)).s) distribute (svd r c (Y - X)).s (svd r c (Y - X)).vh)
      (weightB (rankOf_le maxRank eps (svd r c (Y - X)).s) distribute (svd r c (Y - X)).s (svd r c (Y - X)).u)).1
    refine ⟨_, hwt.trans (congrArg (fun x => Except.ok (some x)) ((congrArg (Mat.plus ⟨r, c, X⟩) hprod).trans (mat_plus _ _))), ?_⟩
    intro B A
    rw [← sub_sub, ← sub_sub]
    exact h2 B A
  | true =>
    rw [hemb] at hwt
    obtain ⟨h1, h2⟩ := key c r (Y - X)ᵀ hc hr
    rw [if_neg (show ((decompMat svd maxRank eps distribute true ⟨r, c, Y - X⟩).1.rows ≠ 0) from h1)] at hwt
    have hprod := (mat_product (m := c) (n := r) h1 (weightA (rankOf_le maxRank eps (svd c r (Y - X)ᵀ).s) distribute (svd c r (Y - X)ᵀ).s (svd c r (Y - X)ᵀ).vh)
      (weightB (rankOf_le maxRank eps (svd c r (Y - X)ᵀ).s) distribute (svd c r (Y - X)ᵀ).s (svd c r (Y - X)ᵀ).u)).2
    refine ⟨_, hwt.trans (congrArg (fun x => Except.ok (some x)) ((congrArg (Mat.plus ⟨r, c, X⟩) hprod).trans (mat_plus _ _))), ?_⟩
    intro B A
    have := h2 Aᵀ Bᵀ
    rw [← transpose_mul, ← transpose_sub, sumSq_transpose, ← sumSq_transpose, transpose_sub, transpose_transpose] at this
    rw [← sub_sub, ← sub_sub]
    exact this

/-- C129, refuted with a threshold: if one of the modules to decompose has not changed, its rank is zero and the adapter cannot be loaded at all. -/
theorem C129_zero_rank (hsvd : ∀ m n M, IsSvd M (svd m n M).u (svd m n M).s (svd m n M).vh)
    (hu : Uniform o ms) (hnd : (ms.map (fun m => m.name)).Nodup) (hp : ∀ m ∈ ms, Plain m.name) (hap : Apart o ms)
    (h : extract arch base model (decompMat svd maxRank eps distribute) Mat.rows o [] ms = .ok a) (heps : 0 < eps)
    {m : Module} (hm : m ∈ ms) (hw : Split o m) (heq : model (m.name ++ cs!".weight") = base (m.name ++ cs!".weight")) :
    ∃ e, peftLoad Mat.plus Mat.product base a ms = .error e := by
  have hran := ran hu hnd hp hap h
  obtain ⟨b, f, hb, hf, _⟩ := hran.split m hm hw
  rw [heq, hb] at hf
  cases hf
  have hwt := weight_split (plus := Mat.plus) (product := Mat.product) hran hap hm hw hb (heq.trans hb)
  obtain ⟨r, c, X⟩ := b
  rw [mat_sub, sub_self] at hwt
  have key : ∀ m n, rankOf maxRank eps (svd m n 0).s = 0 := by
    intro m n
    by_contra hne
    have hk : 0 < min m n := lt_of_lt_of_le (Nat.pos_of_ne_zero hne) (rankOf_le _ _ _)
    have h1 := ((C59_rank (hsvd m n 0) maxRank eps ⟨0, hk⟩).1 (Nat.pos_of_ne_zero hne)).2 heps
    have he := C59_error (hsvd m n 0) (Nat.zero_le _) false
    rw [C59_exact (hsvd m n 0) (Nat.zero_le _) false ⟨0, 0, by simp⟩, sub_self] at he
    have h0 : sumSq (0 : Matrix (Fin m) (Fin n) ℝ) = 0 := by simp [sumSq]
    rw [h0] at he
    have := (Finset.sum_eq_zero_iff_of_nonneg (fun i _ => by split <;> positivity)).1 he.symm ⟨0, hk⟩ (Finset.mem_univ _)
    simp only [lt_self_iff_false, if_false] at this
    rw [pow_eq_zero_iff two_ne_zero] at this
    linarith
  rw [if_pos] at hwt
  · exact load_error hm hw.2.1 hwt
  · cases decide (m.kind = .embedding) with
    | false => exact key r c
    | true =>
      show rankOf maxRank eps (svd c r (0 : Matrix (Fin r) (Fin c) ℝ)ᵀ).s = 0
      rw [transpose_zero]
      exact key c r

/-- C129, refuted for biases: of a decomposed module the difference of the biases is in the file, but the loaded bias is the base model's. -/
theorem C129_bias_lost (hu : Uniform o ms) (hnd : (ms.map (fun m => m.name)).Nodup) (hp : ∀ m ∈ ms, Plain m.name) (hap : Apart o ms)
    (h : extract arch base model (decompMat svd maxRank eps distribute) Mat.rows o [] ms = .ok a)
    {m : Module} (hm : m ∈ ms) (hw : Split o m) (hb : arch (m.name ++ cs!".bias") ≠ none) :
    ∃ b f, base (m.name ++ cs!".bias") = some b ∧ model (m.name ++ cs!".bias") = some f ∧
      (cs!"base_model.model." ++ m.name ++ cs!".lora_B.bias", f - b) ∈ a.tensors ∧ peftBias base a m = some b := by
  have hran := ran hu hnd hp hap h
  obtain ⟨b, f, h1, h2, h3⟩ := hran.bias m hm hw hb
  refine ⟨b, f, h1, h2, ?_, ?_⟩
  · obtain ⟨l₁, l₂, he, _⟩ := List.lookup_eq_some_iff.1 h3
    rw [he]
    exact List.mem_append_right _ List.mem_cons_self
  · rw [bias_other hran hm hw.1, h1]

end

/-! ## The hypotheses can be met -/

/-- There is such a decomposition of all matrices. -/
theorem svd_exists : ∃ svd : ∀ m n, Matrix (Fin m) (Fin n) ℝ → Svd m n, ∀ m n M, IsSvd M (svd m n M).u (svd m n M).s (svd m n M).vh := by
  refine ⟨fun m n M => ⟨(SvdExists.exists_svd rfl M).choose, (SvdExists.exists_svd rfl M).choose_spec.choose, (SvdExists.exists_svd rfl M).choose_spec.choose_spec.choose⟩, ?_⟩
  intro m n M
  obtain ⟨h1, h2, h3, h4, h5⟩ := (SvdExists.exists_svd rfl M).choose_spec.choose_spec.choose_spec
  exact ⟨h1, h2, h3, h4, h5⟩

instance (o : Opts) (m : Module) : Decidable (Decomposed o m) := by unfold Decomposed; infer_instance
instance (o : Opts) (m : Module) : Decidable (Whole o m) := by unfold Whole; infer_instance
instance (o : Opts) (m : Module) : Decidable (Split o m) := by unfold Split; infer_instance

theorem small_apart : Apart defaults small := ⟨by decide +kernel, by decide +kernel, by decide +kernel⟩

/-- The base model of `small`: zeros; its fine-tuned version: ones in the weights of layer 0. -/
noncomputable def before (n : Str) : Option Mat := if n = cs!"model.0.q.bias" then some ⟨1, 2, 0⟩ else some ⟨2, 2, 0⟩
/-- The fine-tuned model. -/
noncomputable def after (n : Str) : Option Mat :=
  if n = cs!"model.0.q.bias" then some ⟨1, 2, Matrix.of (fun _ _ => 1)⟩ else if n = cs!"model.0.q.weight" then some ⟨2, 2, Matrix.of (fun _ _ => 1)⟩ else some ⟨2, 2, 0⟩

theorem small_runs (svd : ∀ m n, Matrix (Fin m) (Fin n) ℝ → Svd m n) (maxRank : Nat) (eps : ℝ) : ∃ a,
    extract (fun n => if n = cs!"model.0.q.bias" then some true else none) before after (decompMat svd maxRank eps false) Mat.rows defaults [] small = .ok a := ⟨_, rfl⟩

/-- Rank one is enough for `small`, so the theorem applies and the changed layer comes back. -/
example : ∃ svd : ∀ m n, Matrix (Fin m) (Fin n) ℝ → Svd m n, ∃ a out, extract (fun n => if n = cs!"model.0.q.bias" then some true else none) before after
    (decompMat svd 1 0 false) Mat.rows defaults [] small = .ok a ∧ peftLoad Mat.plus Mat.product before a small = .ok out ∧
    ∃ b, (cs!"model.0.q", some (Mat.mk 2 2 (Matrix.of (fun _ _ => 1))), b) ∈ out := by
  obtain ⟨svd, hsvd⟩ := svd_exists
  obtain ⟨a, ha⟩ := small_runs svd 1 0
  have hone : ∃ (b : Matrix (Fin 2) (Fin 1) ℝ) (a : Matrix (Fin 1) (Fin 2) ℝ), (Matrix.of (fun _ _ => 1) : Matrix (Fin 2) (Fin 2) ℝ) - 0 = b * a := by
    refine ⟨Matrix.of (fun _ _ => 1), Matrix.of (fun _ _ => 1), ?_⟩
    ext i j
    simp [Matrix.mul_apply]
  obtain ⟨out, h1, _, h3⟩ := C129_restores_partial hsvd (by unfold Uniform; decide +kernel) (by decide)
    (by unfold Plain; decide +kernel) small_apart ha
    (by
      intro m hm hw
      have : m = ⟨cs!"model.0.q", .linear, true, false⟩ ∨ m = ⟨cs!"model.1.q", .linear, true, false⟩ := by
        revert m
        decide +kernel
      rcases this with rfl | rfl
      · exact ⟨2, 2, 0, Matrix.of (fun _ _ => 1), rfl, rfl, C129_low_rank hsvd le_rfl one_pos (by decide) (by decide) hone _⟩
      · exact ⟨2, 2, 0, 0, rfl, rfl, C129_low_rank hsvd le_rfl one_pos (by decide) (by decide) ⟨0, 0, by simp⟩ _⟩)
    (by
      intro m _ _ hn
      unfold after at hn
      split at hn
      · cases hn
      · split at hn <;> cases hn)
  obtain ⟨w, b, hin, hw, _⟩ := h3 ⟨cs!"model.0.q", .linear, true, false⟩ (by decide +kernel) rfl
  refine ⟨svd, a, out, ha, h1, b, ?_⟩
  rw [hw (Or.inr (by decide +kernel))] at hin
  exact hin

/-- And with a threshold the unchanged layer makes the adapter useless, and its changed bias is lost. -/
example : ∃ svd : ∀ m n, Matrix (Fin m) (Fin n) ℝ → Svd m n, ∃ a e, extract (fun n => if n = cs!"model.0.q.bias" then some true else none) before after
    (decompMat svd 1 1 false) Mat.rows defaults [] small = .ok a ∧ peftLoad Mat.plus Mat.product before a small = .error e ∧
    peftBias before a ⟨cs!"model.0.q", .linear, true, false⟩ = some ⟨1, 2, 0⟩ ∧ after cs!"model.0.q.bias" = some ⟨1, 2, Matrix.of (fun _ _ => 1)⟩ := by
  obtain ⟨svd, hsvd⟩ := svd_exists
  obtain ⟨a, ha⟩ := small_runs svd 1 1
  obtain ⟨e, he⟩ := C129_zero_rank hsvd (by unfold Uniform; decide +kernel) (by decide) (by unfold Plain; decide +kernel) small_apart ha one_pos
    (m := ⟨cs!"model.1.q", .linear, true, false⟩) (by decide +kernel) (by decide +kernel) rfl
  obtain ⟨b, f, h1, _, _, h4⟩ := C129_bias_lost (by unfold Uniform; decide +kernel) (by decide) (by unfold Plain; decide +kernel) small_apart ha
    (m := ⟨cs!"model.0.q", .linear, true, false⟩) (by decide +kernel) (by decide +kernel) (by decide +kernel)
  refine ⟨svd, a, e, ha, he, h4.trans ?_, rfl⟩
  rw [← h1]
  rfl

end Verif.Lora
