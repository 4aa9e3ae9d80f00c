import Verif.Model.Arch
import Verif.Proof.Names

/-! # C63: templates of tensor names -/

set_option linter.unusedSectionVars false

namespace Verif.Arch

open Verif.ModelRef (Str)

/-! ## One template -/

theorem render_ok {n : Int} {layer : Option Int} {ps : List Piece} {s : Str} :
    render n layer ps = .ok s ↔ ∃ xs, List.Forall₂ (fun p x => renderPiece n layer p = .ok x) ps xs ∧ s = xs.flatten := by
  induction ps generalizing s with
  | nil =>
    constructor
    · intro h
      simp only [render, Except.ok.injEq] at h
      exact ⟨[], .nil, by simp [← h]⟩
    · rintro ⟨xs, h, rfl⟩
      cases h
      rfl
  | cons p ps ih =>
    constructor
    · intro h
      unfold render at h
      cases hp : renderPiece n layer p with
      | error e => rw [hp] at h; cases h
      | ok a =>
        rw [hp] at h
        cases hr : render n layer ps with
        | error e => rw [hr] at h; cases h
        | ok b =>
          rw [hr] at h
          simp only [Except.ok.injEq] at h
          obtain ⟨xs, h1, rfl⟩ := ih.1 hr
          exact ⟨a :: xs, .cons hp h1, by simp [← h]⟩
    · rintro ⟨xs, h, rfl⟩
      cases h with
      | @cons _ a _ xs hp h =>
        unfold render
        rw [hp, ih.2 ⟨xs, h, rfl⟩]
        simp

theorem toDigits_inj {a b : Nat} (h : Nat.toDigits 10 a = Nat.toDigits 10 b) : a = b := by
  have h' := congrArg (fun s => Nat.ofDigitChars 10 s 0) h
  simpa [Nat.ofDigitChars_ten_toDigits] using h'

theorem toDigits_length_mono {a b : Nat} (h : a ≤ b) : (Nat.toDigits 10 a).length ≤ (Nat.toDigits 10 b).length := by
  have hb : 0 < (Nat.toDigits 10 b).length := Nat.length_toDigits_pos
  rw [Nat.length_toDigits_le_iff (by decide) hb]
  exact Nat.lt_of_le_of_lt h ((Nat.length_toDigits_le_iff (by decide) hb).1 (Nat.le_refl _))

theorem minus_not_digits (n : Nat) : '-' ∉ Nat.toDigits 10 n := by
  intro h
  have := Verif.Writer.digits_all n _ h
  revert this
  decide

theorem dec_inj {a b : Int} (h : dec a = dec b) : a = b := by
  cases a with
  | ofNat a => cases b with
    | ofNat b => simp only [dec] at h; rw [toDigits_inj h]
    | negSucc b =>
      simp only [dec] at h
      exact absurd (h ▸ List.mem_cons_self) (minus_not_digits a)
  | negSucc a => cases b with
    | ofNat b =>
      simp only [dec] at h
      exact absurd (h ▸ List.mem_cons_self) (minus_not_digits b)
    | negSucc b =>
      simp only [dec, List.cons.injEq, true_and] at h
      have := toDigits_inj h
      rw [Nat.succ.inj this]

/-- Pieces that depend on the layer. -/
def layerVars : List Str := ["layer_index".toList, "layer_index+1".toList, "layer_index-1".toList]

/-- The value of a layer variable. -/
theorem lookup_layer {n i : Int} {v : Str} (hv : v ∈ layerVars) :
    (v = "layer_index".toList ∧ lookup n (some i) v = some i) ∨ (v = "layer_index+1".toList ∧ lookup n (some i) v = some (i + 1)) ∨
      (v = "layer_index-1".toList ∧ lookup n (some i) v = some (i - 1)) := by
  simp only [layerVars, List.mem_cons, List.not_mem_nil, or_false] at hv
  rcases hv with rfl | rfl | rfl
  · exact Or.inl ⟨rfl, rfl⟩
  · exact Or.inr (Or.inl ⟨rfl, rfl⟩)
  · exact Or.inr (Or.inr ⟨rfl, rfl⟩)

theorem lookup_other {n i j : Int} {v : Str} (hv : v ∉ layerVars) : lookup n (some i) v = lookup n (some j) v := by
  simp only [layerVars, List.mem_cons, List.not_mem_nil, or_false, not_or] at hv
  obtain ⟨h1, h2, h3⟩ := hv
  unfold lookup
  simp only [if_neg h1, if_neg h2, if_neg h3]

theorem renderPiece_other {n i j : Int} {p : Piece} (hp : ∀ v, p = .var v → v ∉ layerVars) :
    renderPiece n (some i) p = renderPiece n (some j) p := by
  cases p with
  | lit c => rfl
  | invalid => rfl
  | var v =>
    simp only [renderPiece]
    rw [lookup_other (hp v rfl)]

theorem flatten_len {xs ys : List Str} (h : List.Forall₂ (fun x y => x.length ≤ y.length) xs ys) :
    xs.flatten.length ≤ ys.flatten.length := by
  induction h with
  | nil => exact Nat.le_refl _
  | cons h1 _ ih => simp only [List.flatten_cons, List.length_append]; omega

/-- Equal texts built of pieces none of which got shorter are built of equal pieces. -/
theorem flatten_inj {xs ys : List Str} (h : List.Forall₂ (fun x y => x.length ≤ y.length) xs ys) (he : xs.flatten = ys.flatten) :
    xs = ys := by
  induction h with
  | nil => rfl
  | @cons x y xs ys h1 h2 ih =>
    simp only [List.flatten_cons] at he
    have hl := congrArg List.length he
    simp only [List.length_append] at hl
    have := flatten_len h2
    obtain ⟨h3, h4⟩ := List.append_inj he (by omega)
    rw [h3, ih h4]

theorem count_flatten {xs ys : List Str} (h : List.Forall₂ (fun x y => y.count '-' ≤ x.count '-') xs ys) :
    ys.flatten.count '-' ≤ xs.flatten.count '-' := by
  induction h with
  | nil => exact Nat.le_refl _
  | cons h1 _ ih => simp only [List.flatten_cons, List.count_append]; omega

theorem forall₂_join {A B : Type} {R : A → B → Prop} {R' : A → B → Prop} {Q : B → B → Prop} {ps : List A} {xs ys : List B}
    (h1 : List.Forall₂ R ps xs) (h2 : List.Forall₂ R' ps ys) (hq : ∀ p ∈ ps, ∀ x y, R p x → R' p y → Q x y) : List.Forall₂ Q xs ys := by
  induction h1 generalizing ys with
  | nil => cases h2; exact .nil
  | @cons p x ps xs hp _ ih =>
    cases h2 with
    | cons hp' h2 => exact .cons (hq p (by simp) _ _ hp hp') (ih h2 (fun q hq' => hq q (by simp [hq'])))

theorem render_layer_lt {n : Int} {i j : Nat} (hij : i < j) {ps : List Piece} {s t : Str} (hs : render n (some i) ps = .ok s)
    (ht : render n (some j) ps = .ok t) (hv : ∃ v ∈ layerVars, Piece.var v ∈ ps) : s ≠ t := by
  obtain ⟨xs, h1, rfl⟩ := render_ok.1 hs
  obtain ⟨ys, h2, rfl⟩ := render_ok.1 ht
  have value : ∀ {k : Nat} {v : Str} {x : Str}, v ∈ layerVars → renderPiece n (some k) (.var v) = .ok x →
      (v = "layer_index".toList ∧ x = dec k) ∨ (v = "layer_index+1".toList ∧ x = dec (k + 1)) ∨ (v = "layer_index-1".toList ∧ x = dec (k - 1)) := by
    intro k v x hm hx
    simp only [renderPiece] at hx
    rcases lookup_layer (n := n) (i := k) hm with ⟨e, h⟩ | ⟨e, h⟩ | ⟨e, h⟩ <;> rw [h] at hx <;> simp only [Except.ok.injEq] at hx
    · exact Or.inl ⟨e, hx.symm⟩
    · exact Or.inr (Or.inl ⟨e, hx.symm⟩)
    · exact Or.inr (Or.inr ⟨e, hx.symm⟩)
  by_cases hz : i = 0 ∧ Piece.var "layer_index-1".toList ∈ ps
  · obtain ⟨rfl, hm⟩ := hz
    intro he
    -- the minus sign of the first layer
    have hcount : ∀ k : Nat, (dec (k : Int)).count '-' = 0 := fun k => List.count_eq_zero.2 (minus_not_digits k)
    have hj1 : (dec ((j : Int) - 1)).count '-' = 0 := by
      have : ((j : Int) - 1) = ((j - 1 : Nat) : Int) := by omega
      rw [this]
      exact hcount _
    have key : ∀ (ps : List Piece) (xs ys : List Str), List.Forall₂ (fun p x => renderPiece n (some ((0 : Nat) : Int)) p = .ok x) ps xs →
        List.Forall₂ (fun p x => renderPiece n (some (j : Int)) p = .ok x) ps ys →
        ys.flatten.count '-' ≤ xs.flatten.count '-' ∧
        (Piece.var "layer_index-1".toList ∈ ps → ys.flatten.count '-' < xs.flatten.count '-') := by
      intro ps
      induction ps with
      | nil => intro xs ys h1 h2; cases h1; cases h2; simp
      | cons p ps ih =>
        intro xs ys h1 h2
        cases h1 with
        | @cons _ x _ xs hp h1 =>
          cases h2 with
          | @cons _ y _ ys hq h2 =>
            obtain ⟨i1, i2⟩ := ih xs ys h1 h2
            simp only [List.flatten_cons, List.count_append]
            have hle : y.count '-' ≤ x.count '-' ∧ (p = .var "layer_index-1".toList → y.count '-' < x.count '-') := by
              by_cases hpl : ∃ v ∈ layerVars, p = .var v
              · obtain ⟨v, hv, rfl⟩ := hpl
                rcases value hv hq with ⟨rfl, hy⟩ | ⟨rfl, hy⟩ | ⟨rfl, hy⟩
                · refine ⟨by rw [hy, hcount]; omega, fun hc => ?_⟩
                  simp at hc
                · have hy0 : y.count '-' = 0 := by
                    rw [hy]; exact hcount (j + 1)
                  refine ⟨by omega, fun hc => ?_⟩
                  simp at hc
                · rcases value hv hp with ⟨e, hx⟩ | ⟨e, hx⟩ | ⟨_, hx⟩
                  · simp at e
                  · simp at e
                  · have hx1 : x.count '-' = 1 := by rw [hx]; decide
                    rw [hy, hj1, hx1]
                    exact ⟨by omega, fun _ => by omega⟩
              · have he : renderPiece n (some ((0 : Nat) : Int)) p = renderPiece n (some (j : Int)) p :=
                  renderPiece_other (fun v hv hm => hpl ⟨v, hm, hv⟩)
                rw [he, hq] at hp
                simp only [Except.ok.injEq] at hp
                subst hp
                refine ⟨Nat.le_refl _, fun hc => ?_⟩
                exact absurd ⟨_, by simp [layerVars], hc⟩ hpl
            refine ⟨by omega, fun hm => ?_⟩
            rcases List.mem_cons.1 hm with h | h
            · have := hle.2 h.symm
              omega
            · have := i2 h
              omega
    have := (key ps xs ys h1 h2).2 hm
    rw [he] at this
    omega
  · intro he
    have hmono : List.Forall₂ (fun x y : Str => x.length ≤ y.length) xs ys := by
      refine forall₂_join h1 h2 ?_
      intro p hp x y hx hy
      by_cases hpl : ∃ v ∈ layerVars, p = .var v
      · obtain ⟨v, hv, rfl⟩ := hpl
        rcases value hv hx with ⟨e1, h1⟩ | ⟨e1, h1⟩ | ⟨e1, h1⟩
        · rcases value hv hy with ⟨e2, h2⟩ | ⟨e2, h2⟩ | ⟨e2, h2⟩
          · rw [h1, h2]; exact toDigits_length_mono (by omega)
          · rw [e1] at e2; simp at e2
          · rw [e1] at e2; simp at e2
        · rcases value hv hy with ⟨e2, h2⟩ | ⟨e2, h2⟩ | ⟨e2, h2⟩
          · rw [e1] at e2; simp at e2
          · rw [h1, h2]
            exact toDigits_length_mono (a := i + 1) (b := j + 1) (by omega)
          · rw [e1] at e2; simp at e2
        · rcases value hv hy with ⟨e2, h2⟩ | ⟨e2, h2⟩ | ⟨e2, h2⟩
          · rw [e1] at e2; simp at e2
          · rw [e1] at e2; simp at e2
          · have hi : i ≠ 0 := fun h0 => hz ⟨h0, e1 ▸ hp⟩
            rw [h1, h2]
            have ea : ((i : Int) - 1) = ((i - 1 : Nat) : Int) := by omega
            have eb : ((j : Int) - 1) = ((j - 1 : Nat) : Int) := by omega
            rw [ea, eb]
            exact toDigits_length_mono (by omega)
      · have he : renderPiece n (some (i : Int)) p = renderPiece n (some (j : Int)) p :=
          renderPiece_other (fun v hv hm => hpl ⟨v, hm, hv⟩)
        rw [he, hy] at hx
        simp only [Except.ok.injEq] at hx
        subst hx
        exact Nat.le_refl _
    have heq := flatten_inj hmono he
    subst heq
    obtain ⟨v, hv, hm⟩ := hv
    have hsame : ∃ x, renderPiece n (some (i : Int)) (.var v) = .ok x ∧ renderPiece n (some (j : Int)) (.var v) = .ok x := by
      clear hmono he hs ht
      induction h1 with
      | nil => simp at hm
      | @cons p x ps xs hp _ ih =>
        cases h2 with
        | cons hq h2 =>
          rcases List.mem_cons.1 hm with h | h
          · exact ⟨x, h ▸ hp, h ▸ hq⟩
          · exact ih (fun h0 => hz ⟨h0.1, List.mem_cons_of_mem _ h0.2⟩) h2 h
    obtain ⟨x, hx, hy⟩ := hsame
    rcases value hv hx with ⟨e1, h1⟩ | ⟨e1, h1⟩ | ⟨e1, h1⟩ <;> rcases value hv hy with ⟨e2, h2⟩ | ⟨e2, h2⟩ | ⟨e2, h2⟩ <;>
      first
        | (rw [e1] at e2; simp at e2; done)
        | (have := dec_inj (h1.symm.trans h2); omega)

/-- C63: a template either gives the same name in every layer or a different one in any two layers. -/
theorem C63_all_or_none (template : Str) (n : Nat) :
    (∀ i j : Nat, expand template n (some i) = expand template n (some j)) ∨
      (∀ i j : Nat, i ≠ j → ∀ s t, expand template n (some i) = .ok s → expand template n (some j) = .ok t → s ≠ t) := by
  by_cases hb : '{' ∈ template
  · by_cases hv : ∃ v ∈ layerVars, Piece.var v ∈ pieces template.length template
    · right
      intro i j hij s t hs ht
      unfold expand at hs ht
      rw [if_pos hb] at hs ht
      rcases Nat.lt_or_gt_of_ne hij with h | h
      · exact render_layer_lt h hs ht hv
      · exact (render_layer_lt h ht hs hv).symm
    · left
      intro i j
      unfold expand
      rw [if_pos hb, if_pos hb]
      have hno : ∀ p ∈ pieces template.length template, ∀ v, p = Piece.var v → v ∉ layerVars := by
        rintro p hp v rfl hm
        exact hv ⟨v, hm, hp⟩
      generalize pieces template.length template = ps at hno
      clear hv hb
      induction ps with
      | nil => rfl
      | cons p ps ih =>
        unfold render
        rw [renderPiece_other (j := (j : Int)) (hno p (by simp)), ih (fun q hq => hno q (by simp [hq]))]
  · left
    intro i j
    simp [expand, hb]

theorem splitId_layer (s : Str) : splitId ("layer_index}".toList ++ s) = some ("layer_index".toList, '}' :: s) := by
  unfold splitId
  have h1 : List.takeWhile isIdChar ("ayer_index".toList ++ '}' :: s) = "ayer_index".toList := by
    rw [List.takeWhile_append_of_pos (by decide)]
    simp [List.takeWhile_cons, show isIdChar '}' = false by decide]
  have h2 : List.dropWhile isIdChar ("ayer_index".toList ++ '}' :: s) = '}' :: s := by
    rw [List.dropWhile_append_of_pos (by decide)]
    simp [List.dropWhile_cons, show isIdChar '}' = false by decide]
  have e : "layer_index}".toList ++ s = 'l' :: ("ayer_index".toList ++ '}' :: s) := rfl
  rw [e]
  simp only [show isIdStart 'l' = true by decide, if_true, h1, h2]
  rfl

theorem pieces_plain {s : Str} (hs : '$' ∉ s) (k : Nat) (rest : Str) :
    pieces (s.length + k) (s ++ rest) = s.map Piece.lit ++ pieces k rest := by
  induction s with
  | nil => simp
  | cons c s ih =>
    have hc : c ≠ '$' := fun h => hs (by simp [h])
    have e : (c :: s).length + k = (s.length + k) + 1 := by simp only [List.length_cons]; omega
    rw [e, List.cons_append]
    have h1 : pieces ((s.length + k) + 1) (c :: (s ++ rest)) = .lit c :: pieces (s.length + k) (s ++ rest) := by
      simp [pieces, hc]
    rw [h1, ih (fun h => hs (by simp [h]))]
    rfl

theorem render_lits (n : Int) (layer : Option Int) (s : Str) (ps : List Piece) :
    render n layer (s.map Piece.lit ++ ps) = (render n layer ps).map (fun t => s ++ t) := by
  induction s with
  | nil => cases h : render n layer ps <;> simp [h, Except.map]
  | cons c s ih =>
    simp only [List.map_cons, List.cons_append, render, renderPiece, ih]
    cases render n layer ps <;> simp [Except.map]

/-- C63: a placeholder in a template is replaced by the number of the layer and the rest stays; "${layer_index}" is the form every shipped
definition uses. -/
theorem C63_replaces (pre post : Str) (hpre : '$' ∉ pre) (hpost : '$' ∉ post) (n i : Nat) :
    expand (pre ++ "${layer_index}".toList ++ post) n (some i) = .ok (pre ++ Nat.toDigits 10 i ++ post) := by
  have hb : '{' ∈ pre ++ "${layer_index}".toList ++ post := by simp
  unfold expand
  rw [if_pos hb]
  have hlen : (pre ++ "${layer_index}".toList ++ post).length = pre.length + (1 + (post.length + 13)) := by simp; omega
  rw [hlen, List.append_assoc, pieces_plain hpre]
  have e : "${layer_index}".toList ++ post = '$' :: '{' :: ("layer_index}".toList ++ post) := rfl
  have h1 : pieces (1 + (post.length + 13)) ("${layer_index}".toList ++ post) =
      Piece.var "layer_index".toList :: pieces (post.length + 13) post := by
    rw [e, Nat.add_comm 1]
    simp only [pieces, afterDollar, splitId_layer]
  rw [h1]
  have h2 := pieces_plain hpost 13 []
  rw [List.append_nil] at h2
  rw [h2, render_lits]
  have h3 : pieces 13 [] = [] := rfl
  rw [h3]
  have h4 : render n (some (i : Int)) (Piece.var "layer_index".toList :: (post.map Piece.lit ++ [])) = .ok (Nat.toDigits 10 i ++ post) := by
    unfold render
    have h5 : renderPiece n (some (i : Int)) (Piece.var "layer_index".toList) = .ok (Nat.toDigits 10 i) := rfl
    rw [h5, render_lits]
    simp [render, Except.map]
  rw [h4]
  simp [Except.map]

/-- Text without a brace stays as it is. -/
theorem C63_plain (name : Str) (h : '{' ∉ name) (n : Nat) (layer : Option Int) : expand name n layer = .ok name := by
  simp [expand, h]

/-- C63: names of a module stay distinct when its prefix is added. -/
theorem C63_prefix (pre : Option Str) (v w : WeightInfo) (h : v.name ≠ w.name) : (prefixWeight v pre).name ≠ (prefixWeight w pre).name := by
  cases pre with
  | none => exact h
  | some p => simpa [prefixWeight] using h

/-- Placeholders with arithmetic, repeated placeholders, and layers 0, 9, 10. -/
example : expand "h.${layer_index-1}.${layer_index}x${num_layers+1}".toList 12 (some 0) = .ok "h.-1.0x13".toList ∧
    expand "h.${layer_index-1}.${layer_index}x${num_layers+1}".toList 12 (some 10) = .ok "h.9.10x13".toList ∧
    expand "a.${layer}".toList 12 (some 0) = .error (.key "layer".toList) ∧
    expand "a.${layer_index}".toList 12 none = .error (.key "layer_index".toList) ∧
    expand "a.$$b{".toList 12 none = .ok "a.$b{".toList ∧ expand "a.$ {".toList 12 none = .error .value := by decide

end Verif.Arch
