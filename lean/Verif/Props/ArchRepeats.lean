import Verif.Props.ArchNames

/-! # C63: definitions with names that repeat; python-defined architectures -/

set_option linter.unusedSectionVars false

namespace Verif.Arch

open Verif.ModelRef (Str)

theorem substituteAll_mem {n : Int} {layer : Option Int} {ws vs : List WeightInfo} (h : substituteAll n layer ws = .ok vs) {w : WeightInfo}
    (hw : w ∈ ws) : ∃ v ∈ vs, substitute w n layer = .ok v := by
  induction ws generalizing vs with
  | nil => simp at hw
  | cons u us ih =>
    unfold substituteAll at h
    cases hu : substitute u n layer with
    | error e => rw [hu] at h; cases h
    | ok a =>
      rw [hu] at h
      simp only at h
      cases hr : substituteAll n layer us with
      | error e => rw [hr] at h; cases h
      | ok b =>
        rw [hr] at h
        simp only [Except.ok.injEq] at h
        subst h
        rcases List.mem_cons.1 hw with rfl | hw
        · exact ⟨a, by simp, hu⟩
        · obtain ⟨v, hv, h⟩ := ih hr hw
          exact ⟨v, by simp [hv], h⟩

theorem substitute_name {w v : WeightInfo} {n : Int} {layer : Option Int} (h : substitute w n layer = .ok v) : expand w.name n layer = .ok v.name := by
  unfold substitute at h
  cases h1 : expand w.name n layer with
  | error e => rw [h1] at h; cases h
  | ok s =>
    rw [h1] at h
    simp only at h
    cases h2 : expandOpt n layer w.aliases with
    | error e => rw [h2] at h; cases h
    | ok a =>
      rw [h2] at h
      simp only at h
      cases h3 : expandOpt n layer w.tiedNames with
      | error e => rw [h3] at h; cases h
      | ok t =>
        rw [h3] at h
        simp only [Except.ok.injEq] at h
        rw [← h]

/-- A layer weight whose name does not depend on the layer makes the names of a module with several layers repeat. -/
theorem module_repeats {m : Module} {w : WeightInfo} (hw : w ∈ m.layers) (hname : '{' ∉ w.name) {configured : Nat}
    (hn : 2 ≤ m.numLayers configured) {ws : List WeightInfo} (h : m.allWeights configured = .ok ws) :
    ∃ x y z, ws = x ++ y ++ z ∧ (∃ v ∈ x, v.name = w.name) ∧ ∃ v ∈ y, v.name = w.name := by
  unfold Module.allWeights at h
  obtain ⟨k, hk⟩ : ∃ k, m.numLayers configured = k + 2 := ⟨m.numLayers configured - 2, by omega⟩
  simp only [hk] at h
  cases ha : substituteAll ((k + 2 : Nat) : Int) none m.pre with
  | error e => rw [ha] at h; cases h
  | ok a =>
    rw [ha] at h
    simp only at h
    have hr : List.range (k + 2) = 0 :: 1 :: (List.range k).map (fun i => i + 2) := by
      rw [List.range_succ_eq_map, List.range_succ_eq_map]
      simp [Function.comp_def]
    rw [hr] at h
    unfold layersFrom at h
    cases h0 : substituteAll ((k + 2 : Nat) : Int) (some ((0 : Nat) : Int)) m.layers with
    | error e => rw [h0] at h; cases h
    | ok x0 =>
      rw [h0] at h
      simp only at h
      unfold layersFrom at h
      cases h1 : substituteAll ((k + 2 : Nat) : Int) (some ((1 : Nat) : Int)) m.layers with
      | error e => rw [h1] at h; cases h
      | ok x1 =>
        rw [h1] at h
        simp only at h
        cases h2 : layersFrom m (k + 2) ((List.range k).map (fun i => i + 2)) with
        | error e => rw [h2] at h; cases h
        | ok b =>
          rw [h2] at h
          simp only at h
          cases h3 : substituteAll ((k + 2 : Nat) : Int) none m.post with
          | error e => rw [h3] at h; cases h
          | ok c =>
            rw [h3] at h
            simp only [Except.ok.injEq] at h
            obtain ⟨v0, hv0, e0⟩ := substituteAll_mem h0 hw
            obtain ⟨v1, hv1, e1⟩ := substituteAll_mem h1 hw
            have n0 := substitute_name e0
            have n1 := substitute_name e1
            unfold expand at n0 n1
            rw [if_neg hname] at n0 n1
            simp only [Except.ok.injEq] at n0 n1
            exact ⟨a ++ x0, x1, b ++ c, by rw [← h]; simp, ⟨v0, by simp [hv0], n0.symm⟩, ⟨v1, hv1, n1.symm⟩⟩

theorem allWeights_split {ms ms' : List (Module × Nat)} {m : Module} {n : Nat} {ws : List WeightInfo}
    (h : allWeights (ms ++ (m, n) :: ms') = .ok ws) :
    ∃ a x b, m.allWeights n = .ok x ∧ ws = a ++ x.map (fun w => prefixWeight w m.weightPrefix) ++ b := by
  induction ms generalizing ws with
  | nil =>
    simp only [List.nil_append, allWeights] at h
    cases h1 : m.allWeights n with
    | error e => rw [h1] at h; cases h
    | ok x =>
      rw [h1] at h
      simp only at h
      cases h2 : allWeights ms' with
      | error e => rw [h2] at h; cases h
      | ok b =>
        rw [h2] at h
        simp only [Except.ok.injEq] at h
        exact ⟨[], x, b, rfl, by rw [← h]; simp⟩
  | cons e ms ih =>
    obtain ⟨m0, n0⟩ := e
    simp only [List.cons_append, allWeights] at h
    cases h1 : m0.allWeights n0 with
    | error e => rw [h1] at h; cases h
    | ok x =>
      rw [h1] at h
      simp only at h
      cases h2 : allWeights (ms ++ (m, n) :: ms') with
      | error e => rw [h2] at h; cases h
      | ok b =>
        rw [h2] at h
        simp only [Except.ok.injEq] at h
        obtain ⟨a, y, c, hy, rfl⟩ := ih h2
        exact ⟨x.map (fun w => prefixWeight w m0.weightPrefix) ++ a, y, c, hy, by rw [← h]; simp⟩

/-- C63 fails for a definition with a layer template that has no placeholder, if the module has more than one layer: a name is listed
repeatedly. -/
theorem C63_repeats (ms ms' : List (Module × Nat)) (m : Module) (n : Nat) (w : WeightInfo) (hw : w ∈ m.layers) (hname : '{' ∉ w.name)
    (hn : 2 ≤ m.numLayers n) (ws : List WeightInfo) (h : allWeights (ms ++ (m, n) :: ms') = .ok ws) : ¬ (ws.map WeightInfo.name).Nodup := by
  obtain ⟨a, x, b, hx, rfl⟩ := allWeights_split h
  obtain ⟨p, q, r, rfl, ⟨v, hv, e⟩, ⟨v', hv', e'⟩⟩ := module_repeats hw hname hn hx
  intro hnd
  simp only [List.map_append, List.map_map] at hnd
  have h1 := (List.nodup_append.1 (List.nodup_append.1 hnd).1).2.1
  have h2 := (List.nodup_append.1 (List.nodup_append.1 h1).1).2.2
  have key : (prefixWeight v m.weightPrefix).name = (prefixWeight v' m.weightPrefix).name := by
    cases m.weightPrefix with
    | none => simp [prefixWeight, e, e']
    | some p => simp [prefixWeight, e, e']
  exact h2 _ (List.mem_map.2 ⟨v, hv, rfl⟩) _ (List.mem_map.2 ⟨v', hv', rfl⟩) key

/-- C63 fails for the shipped definitions of Qwen2-VL and Qwen2.5-VL, whatever the model's numbers of layers: the projector's weights are
listed twice. -/
theorem C63_qwen_vl (ms : List Module) (hms : ms = Data.qwen2_vl ∨ ms = Data.qwen2_5_vl) (ns : List Nat) (hlen : ns.length = ms.length)
    (ws : List WeightInfo) (h : allWeights (ms.zip ns) = .ok ws) : ¬ (ws.map WeightInfo.name).Nodup := by
  have key : ∀ ms : List Module, (∃ p m s, ms = p ++ m :: s ∧ m.overrideNumLayers = some 2 ∧ ∃ w ∈ m.layers, '{' ∉ w.name) →
      ∀ ns : List Nat, ns.length = ms.length → ∀ ws, allWeights (ms.zip ns) = .ok ws → ¬ (ws.map WeightInfo.name).Nodup := by
    rintro ms ⟨p, m, s, rfl, ho, w, hw, hname⟩ ns hlen ws h
    have hl : p.length < ns.length := by rw [hlen]; simp
    obtain ⟨n1, k, n2, rfl, hn1⟩ : ∃ n1 k n2, ns = n1 ++ k :: n2 ∧ n1.length = p.length :=
      ⟨ns.take p.length, ns[p.length], ns.drop (p.length + 1), by simp [List.getElem_cons_drop], by simp; omega⟩
    rw [List.zip_append hn1.symm] at h
    exact C63_repeats _ _ m k w hw hname (by simp [Module.numLayers, ho]) ws h
  refine key ms ?_ ns hlen ws h
  rcases hms with rfl | rfl
  · exact ⟨[Data.qwen2_vl[0]'(by decide)], Data.qwen2_vl[1]'(by decide), Data.qwen2_vl.drop 2, rfl, by rfl,
      (Data.qwen2_vl[1]'(by decide)).layers[0]'(by decide), by simp, by decide⟩
  · exact ⟨[Data.qwen2_5_vl[0]'(by decide)], Data.qwen2_5_vl[1]'(by decide), Data.qwen2_5_vl.drop 2, rfl, by rfl,
      (Data.qwen2_5_vl[1]'(by decide)).layers[0]'(by decide), by simp, by decide⟩

/-- The hypothesis is met: the definitions do expand. -/
example : (allWeights (Data.qwen2_vl.zip [1, 5, 1])).toOption.isSome = true ∧
    (allWeights (Data.qwen2_5_vl.zip [0, 0, 0])).toOption.isSome = true := by decide +kernel

/-! ## Architectures defined in python -/

theorem collectLayers_ok {layer : Nat → Except Err (List WeightInfo)} {L : Nat → List (List Tok)} {n : Nat} {is : List Nat}
    (h : ∀ i ∈ is, ∃ vs, layer i = .ok vs ∧ vs.map WeightInfo.name = (L i).map (text n i)) :
    ∃ b, collectLayers layer is = .ok b ∧ b.map WeightInfo.name = is.flatMap (fun i => (L i).map (text n i)) := by
  induction is with
  | nil => exact ⟨[], rfl, rfl⟩
  | cons i is ih =>
    obtain ⟨a, ha, hna⟩ := h i (by simp)
    obtain ⟨b, hb, hnb⟩ := ih (fun j hj => h j (by simp [hj]))
    exact ⟨a ++ b, by simp [collectLayers, ha, hb], by simp [hna, hnb]⟩

theorem pythonWeights_nodup {m : Module} {layer : Nat → Except Err (List WeightInfo)} {L : Nat → List (List Tok)} (hp : m.weightPrefix = none)
    (hcheck : checkModule m = true) (n : Nat) (h : ∀ i, ∃ vs, layer i = .ok vs ∧ vs.map WeightInfo.name = (L i).map (text n i))
    (gl : ∀ i, ∀ t ∈ L i, Good t) (c2 : ∀ i, (L i).Pairwise (fun t u => apart litSure t u = true))
    (c3 : ∀ i j, ∀ t ∈ L i, ∀ u ∈ L j, apart diffSure t u = true)
    (c4 : ∀ o, tokNames false none (m.pre ++ m.post) = some o → ∀ i, ∀ t ∈ o, ∀ u ∈ L i, apart sameSure t u = true) :
    ∃ ws, pythonWeights m layer n = .ok ws ∧ (ws.map WeightInfo.name).Nodup := by
  unfold checkModule at hcheck
  rw [hp] at hcheck
  simp only [Bool.and_eq_true] at hcheck
  obtain ⟨⟨h1, _⟩, h3⟩ := hcheck
  split at h3
  · rename_i oo l ho hlay
    simp only [Bool.and_eq_true] at h3
    have go : ∀ t ∈ oo, Good t ∧ Tok.layer ∉ t := fun t ht => ⟨(tokNames_good ho t ht).1, (tokNames_good ho t ht).2 rfl⟩
    have c4' := c4 oo ho
    obtain ⟨o, o', hpre, hpost, rfl⟩ := tokNames_append ho
    rw [List.all_append, Bool.and_eq_true] at h1
    obtain ⟨a, ha, hna⟩ := substituteAll_fine h1.1 none hpre n 0 none (Or.inr rfl)
    obtain ⟨c, hc, hnc⟩ := substituteAll_fine h1.2 none hpost n 0 none (Or.inr rfl)
    obtain ⟨b, hb, hnb⟩ := collectLayers_ok (is := List.range n) (fun i _ => h i)
    refine ⟨a ++ b ++ c, by simp [pythonWeights, ha, hb, hc], ?_⟩
    have e : (a ++ b ++ c).map WeightInfo.name = o.map (text n 0) ++ (List.range n).flatMap (fun i => (L i).map (text n i)) ++ o'.map (text n 0) := by
      rw [List.map_append, List.map_append, hnb]
      have e1 : a.map WeightInfo.name = o.map (text n 0) := hna
      have e2 : c.map WeightInfo.name = o'.map (text n 0) := hnc
      rw [e1, e2]
    rw [e]
    have hperm : (o.map (text n 0) ++ (List.range n).flatMap (fun i => (L i).map (text n i)) ++ o'.map (text n 0)).Perm
        ((o ++ o').map (text n 0) ++ (List.range n).flatMap (fun i => (L i).map (text n i))) := by
      rw [List.map_append, List.append_assoc, List.append_assoc]
      exact List.Perm.append_left _ List.perm_append_comm
    rw [hperm.nodup_iff]
    exact names_nodup n go gl (pairs_iff.1 h3.1.1.1) c2 c3 c4'
  · cases h3

def chrs (s : Str) : List Tok := s.map Tok.chr

theorem text_chrs (n i : Nat) (s : Str) (ts : List Tok) : text n i (chrs s ++ ts) = s ++ text n i ts := by
  induction s with
  | nil => rfl
  | cons c s ih => simp only [chrs, List.map_cons, List.cons_append] at ih ⊢; simp only [text, List.map_cons, List.flatten_cons, Tok.val] at ih ⊢; rw [ih]; rfl

theorem good_chrs {s : Str} (hs : ∀ c ∈ s, c.isDigit = false) {ts : List Tok} (h : Good ts) : Good (chrs s ++ ts) := by
  induction s with
  | nil => exact h
  | cons c s ih => exact ⟨hs c (by simp), ih (fun x hx => hs x (by simp [hx]))⟩

/-- Tokens of the name of an expert's weight. -/
def expertToks (d : Str) (param : Str) : List Tok :=
  chrs cs!"model.layers." ++ .layer :: (chrs cs!".mlp.experts." ++ .num d :: chrs (cs!"." ++ param ++ cs!".weight"))

theorem expertToks_good {d : Str} (hd : d ≠ [] ∧ ∀ c ∈ d, c.isDigit = true) {param : Str} (hp : ∀ c ∈ param, c.isDigit = false) :
    Good (expertToks d param) := by
  have h3 : Good (chrs (cs!"." ++ param ++ cs!".weight")) := by
    have := good_chrs (s := cs!"." ++ param ++ cs!".weight") (ts := []) (by
      intro c hc
      rw [List.mem_append, List.mem_append] at hc
      rcases hc with (hc | hc) | hc
      · revert c; decide
      · exact hp c hc
      · revert c; decide) trivial
    simpa using this
  refine good_chrs (by decide) ⟨rfl, good_chrs (by decide) ⟨hd.1, hd.2, ?_, h3⟩⟩
  rfl

theorem digits_good (e : Nat) : Nat.toDigits 10 e ≠ [] ∧ ∀ c ∈ Nat.toDigits 10 e, c.isDigit = true :=
  ⟨Nat.toDigits_ne_nil, Verif.Writer.digits_all e⟩

def projParams : List Str := [cs!"up_proj", cs!"gate_proj", cs!"down_proj"]

/-- The layer's templates: those of the file and those of the experts. -/
def afmoeToks (l : List (List Tok)) (numExperts : Nat) : List (List Tok) :=
  l ++ (List.range numExperts).flatMap (fun e => projParams.map (expertToks (Nat.toDigits 10 e)))

theorem afmoe_names (numExperts n i : Nat) :
    (afmoeExperts numExperts i).map WeightInfo.name =
      ((List.range numExperts).flatMap (fun e => projParams.map (expertToks (Nat.toDigits 10 e)))).map (text n i) := by
  unfold afmoeExperts
  rw [List.map_flatMap, List.map_flatMap]
  congr 1
  funext e
  have key : ∀ param : Str, text n i (expertToks (Nat.toDigits 10 e) param) =
      "model.layers.".toList ++ Nat.toDigits 10 i ++ ".mlp.experts.".toList ++ Nat.toDigits 10 e ++ '.' :: param ++ ".weight".toList := by
    intro param
    unfold expertToks
    rw [text_chrs]
    have h1 : ∀ ts, text n i (Tok.layer :: ts) = Nat.toDigits 10 i ++ text n i ts := fun ts => rfl
    have h2 : ∀ d ts, text n i (Tok.num d :: ts) = d ++ text n i ts := fun d ts => rfl
    rw [h1, text_chrs, h2]
    have h3 := text_chrs n i (cs!"." ++ param ++ cs!".weight") []
    rw [List.append_nil] at h3
    rw [h3]
    have e1 : cs!"model.layers." = "model.layers.".toList := by decide
    have e2 : cs!".mlp.experts." = ".mlp.experts.".toList := by decide
    have e3 : cs!".weight" = ".weight".toList := by decide
    rw [e1, e2, e3]
    simp [text, List.append_assoc]
  simp only [projParams, List.map_cons, List.map_nil, key]
  have e1 : cs!"up_proj" = "up_proj".toList := by decide
  have e2 : cs!"gate_proj" = "gate_proj".toList := by decide
  have e3 : cs!"down_proj" = "down_proj".toList := by decide
  rw [e1, e2, e3]

/-- The definition file's only module. -/
def afmoeModule : Module := Data.afmoe_partial[0]'(by decide)

theorem apart_experts {sure : Tok → Tok → Bool} {d d' : Str} {p p' : Str} (h : sure .layer .layer = true ∨ sure (.num d) (.num d') = true ∨
    (∃ c x c' x', p = c :: x ∧ p' = c' :: x' ∧ c ≠ c')) : apart sure (expertToks d p) (expertToks d' p') = true := by
  have e : apart sure (expertToks d p) (expertToks d' p') =
      (sure .layer .layer || (sure (.num d) (.num d') || apart sure (chrs (p ++ cs!".weight")) (chrs (p' ++ cs!".weight")))) := rfl
  rw [e]
  rcases h with h | h | ⟨c, x, c', x', rfl, rfl, hc⟩
  · simp [h]
  · simp [h]
  · have : apart sure (chrs (c :: x ++ cs!".weight")) (chrs (c' :: x' ++ cs!".weight")) = true := by
      simp only [chrs, List.cons_append, List.map_cons, apart, if_neg hc]
    rw [this, Bool.or_true, Bool.or_true]

/-- The names differ before either one ends. -/
def early (sure : Tok → Tok → Bool) : List Tok → List Tok → Bool
  | .chr c :: ts, .chr d :: us => if c = d then early sure ts us else true
  | t :: ts, u :: us => if t.isNum && u.isNum then sure t u || early sure ts us else true
  | _, _ => false

theorem early_apart {sure : Tok → Tok → Bool} {ts us : List Tok} (vs ws : List Tok) (h : early sure ts us = true) :
    apart sure (ts ++ vs) (us ++ ws) = true := by
  induction ts generalizing us with
  | nil => cases us <;> simp [early] at h
  | cons t ts ih =>
    cases us with
    | nil => cases t <;> simp [early] at h
    | cons u us =>
      cases t <;> cases u <;> simp_all [early, apart, Tok.isNum] <;> tauto

/-- What the names of all experts' weights of a layer start with. -/
def expertStem : List Tok := chrs cs!"model.layers." ++ .layer :: chrs cs!".mlp.experts."

theorem expertToks_stem (d p : Str) : expertToks d p = expertStem ++ .num d :: chrs (cs!"." ++ p ++ cs!".weight") := rfl

/-- C63 for the AFMoE architecture: with any number of layers and experts the expansion succeeds and all names are distinct. -/
theorem C63_afmoe (n numExperts : Nat) :
    ∃ ws, pythonWeights afmoeModule (afmoeLayer afmoeModule n numExperts) n = .ok ws ∧ (ws.map WeightInfo.name).Nodup := by
  obtain ⟨l, hl⟩ : ∃ l, tokNames true none afmoeModule.layers = some l := Option.isSome_iff_exists.1 (by decide +kernel)
  have hl' : l = (tokNames true none afmoeModule.layers).getD [] := by rw [hl]; rfl
  have hfine : afmoeModule.layers.all (fine true) = true := by decide +kernel
  have k1 : pairs (apart litSure) l = true := by rw [hl']; decide +kernel
  have k2 : l.all (fun t => l.all (apart diffSure t)) = true := by rw [hl']; decide +kernel
  have k3 : l.all (fun t => early litSure t expertStem) = true := by rw [hl']; decide +kernel
  have k4 : l.all (fun t => early diffSure t expertStem && early diffSure expertStem t) = true := by rw [hl']; decide +kernel
  have gl : ∀ t ∈ l, Good t := fun t ht => (tokNames_good hl t ht).1
  have hmem : ∀ t ∈ (List.range numExperts).flatMap (fun e => projParams.map (expertToks (Nat.toDigits 10 e))),
      ∃ e p, p ∈ projParams ∧ t = expertToks (Nat.toDigits 10 e) p := by
    intro t ht
    obtain ⟨e, _, ht⟩ := List.mem_flatMap.1 ht
    obtain ⟨p, hp, rfl⟩ := List.mem_map.1 ht
    exact ⟨e, p, hp, rfl⟩
  refine pythonWeights_nodup (m := afmoeModule) (L := fun _ => afmoeToks l numExperts) (by rfl) (by decide +kernel) n ?_ ?_ ?_ ?_ ?_
  · intro i
    obtain ⟨a, ha, hna⟩ := substituteAll_fine hfine none hl n i (some i) (Or.inl rfl)
    refine ⟨a ++ afmoeExperts numExperts i, by simp [afmoeLayer, ha], ?_⟩
    have hna' : a.map WeightInfo.name = l.map (text n i) := hna
    rw [List.map_append, hna', afmoe_names numExperts n i, afmoeToks, List.map_append]
  · intro i t ht
    rcases List.mem_append.1 ht with ht | ht
    · exact gl t ht
    · obtain ⟨e, p, hp, rfl⟩ := hmem t ht
      exact expertToks_good (digits_good e) ((by decide : ∀ p ∈ projParams, ∀ c ∈ p, c.isDigit = false) p hp)
  · intro _
    refine List.pairwise_append.2 ⟨pairs_iff.1 k1, ?_, ?_⟩
    · rw [List.pairwise_flatMap]
      refine ⟨?_, ?_⟩
      · intro e _
        have h1 : ∀ c x c' x', c ≠ c' → apart litSure (expertToks (Nat.toDigits 10 e) (c :: x)) (expertToks (Nat.toDigits 10 e) (c' :: x')) = true :=
          fun c x c' x' hc => apart_experts (Or.inr (Or.inr ⟨c, x, c', x', rfl, rfl, hc⟩))
        simp only [projParams, List.map_cons, List.map_nil, List.pairwise_cons, List.mem_cons, List.not_mem_nil, or_false,
          List.Pairwise.nil, and_true, forall_eq_or_imp, forall_eq, IsEmpty.forall_iff, implies_true]
        exact ⟨⟨h1 _ _ _ _ (by decide), h1 _ _ _ _ (by decide)⟩, h1 _ _ _ _ (by decide)⟩
      · refine (List.nodup_range (n := numExperts)).imp ?_
        intro e e' he t ht u hu
        obtain ⟨p, _, rfl⟩ := List.mem_map.1 ht
        obtain ⟨p', _, rfl⟩ := List.mem_map.1 hu
        refine apart_experts (Or.inr (Or.inl ?_))
        simp only [litSure, bne_iff_ne, ne_eq]
        exact fun h => he (toDigits_inj h)
    · intro t ht u hu
      obtain ⟨e, p, _, rfl⟩ := hmem u hu
      rw [expertToks_stem]
      have := early_apart [] (.num (Nat.toDigits 10 e) :: chrs (cs!"." ++ p ++ cs!".weight")) (List.all_eq_true.1 k3 t ht)
      rwa [List.append_nil] at this
  · intro _ _ t ht u hu
    rcases List.mem_append.1 ht with ht | ht <;> rcases List.mem_append.1 hu with hu | hu
    · exact List.all_eq_true.1 (List.all_eq_true.1 k2 t ht) u hu
    · obtain ⟨e, p, _, rfl⟩ := hmem u hu
      have h := List.all_eq_true.1 k4 t ht
      rw [Bool.and_eq_true] at h
      have := early_apart [] (.num (Nat.toDigits 10 e) :: chrs (cs!"." ++ p ++ cs!".weight")) h.1
      rwa [List.append_nil] at this
    · obtain ⟨e, p, _, rfl⟩ := hmem t ht
      have h := List.all_eq_true.1 k4 u hu
      rw [Bool.and_eq_true] at h
      have := early_apart (.num (Nat.toDigits 10 e) :: chrs (cs!"." ++ p ++ cs!".weight")) [] h.2
      rwa [List.append_nil] at this
    · obtain ⟨e, p, _, rfl⟩ := hmem t ht
      obtain ⟨e', p', _, rfl⟩ := hmem u hu
      exact apart_experts (Or.inl rfl)
  · intro o ho i t ht u hu
    have k5 : ((tokNames false none (afmoeModule.pre ++ afmoeModule.post)).getD []).all (fun t => early sameSure t expertStem) = true := by
      decide +kernel
    have k6 : ((tokNames false none (afmoeModule.pre ++ afmoeModule.post)).getD []).all (fun t => l.all (apart sameSure t)) = true := by
      rw [hl']; decide +kernel
    rw [ho] at k5 k6
    rcases List.mem_append.1 hu with hu | hu
    · exact List.all_eq_true.1 (List.all_eq_true.1 k6 t ht) u hu
    · obtain ⟨e, p, _, rfl⟩ := hmem u hu
      have := early_apart [] (.num (Nat.toDigits 10 e) :: chrs (cs!"." ++ p ++ cs!".weight")) (List.all_eq_true.1 k5 t ht)
      rwa [List.append_nil] at this

/-- The definition file's only module. -/
def glm4Module : Module := Data.glm4moe[0]'(by decide)

/-- Tokens of the names GLM4-MoE adds to a layer with experts. -/
def glm4Extra : List (List Tok) :=
  [cs!".mlp.experts.gate_up_proj", cs!".mlp.experts.down_proj", cs!".mlp.gate.weight", cs!".mlp.gate.e_score_correction_bias",
    cs!".mlp.shared_experts.gate_proj.weight", cs!".mlp.shared_experts.up_proj.weight", cs!".mlp.shared_experts.down_proj.weight"].map
    (fun s => chrs cs!"model.layers." ++ .layer :: chrs s)

theorem filter_map_text {a : List WeightInfo} {l : List (List Tok)} {f : List Tok → Str} (q : WeightInfo → Bool) (h : a.map WeightInfo.name = l.map f) :
    ∃ l' : List (List Tok), l'.Sublist l ∧ (a.filter q).map WeightInfo.name = l'.map f := by
  induction a generalizing l with
  | nil => exact ⟨[], by simp, rfl⟩
  | cons w a ih =>
    cases l with
    | nil => simp at h
    | cons t l =>
      simp only [List.map_cons, List.cons.injEq] at h
      obtain ⟨l', hs, he⟩ := ih h.2
      by_cases hq : q w = true
      · exact ⟨t :: l', hs.cons_cons t, by simp [List.filter_cons, hq, h.1, he]⟩
      · exact ⟨l', hs.cons t, by simp [List.filter_cons, hq, he]⟩

/-- C63 for the GLM4-MoE architecture, for any number of layers and of leading dense layers. -/
theorem C63_glm4moe (n firstDense : Nat) :
    ∃ ws, pythonWeights glm4Module (glm4Layer glm4Module n firstDense) n = .ok ws ∧ (ws.map WeightInfo.name).Nodup := by
  obtain ⟨l, hl⟩ : ∃ l, tokNames true none glm4Module.layers = some l := Option.isSome_iff_exists.1 (by decide +kernel)
  have hl' : l = (tokNames true none glm4Module.layers).getD [] := by rw [hl]; rfl
  have hfine : glm4Module.layers.all (fine true) = true := by decide +kernel
  have k1 : pairs (apart litSure) (glm4Extra ++ l) = true := by rw [hl']; decide +kernel
  have k2 : (glm4Extra ++ l).all (fun t => (glm4Extra ++ l).all (apart diffSure t)) = true := by rw [hl']; decide +kernel
  have gl : ∀ t ∈ glm4Extra ++ l, Good t := by
    intro t ht
    rcases List.mem_append.1 ht with ht | ht
    · rename_i ht'; clear ht'; obtain ⟨s, hs, rfl⟩ := List.mem_map.1 ht
      refine good_chrs (by decide) ⟨?_, ?_⟩
      · clear ht; revert s; decide
      · have := good_chrs (s := s) (ts := []) (by clear ht; revert s; decide +kernel) trivial
        rwa [List.append_nil] at this
    · exact (tokNames_good hl t ht).1
  have hlayer : ∀ i, ∃ L : List (List Tok), L.Sublist (glm4Extra ++ l) ∧ ∃ vs, glm4Layer glm4Module n firstDense i = .ok vs ∧
      vs.map WeightInfo.name = L.map (text n i) := by
    intro i
    obtain ⟨a, ha, hna⟩ := substituteAll_fine hfine none hl n i (some i) (Or.inl rfl)
    have hna' : a.map WeightInfo.name = l.map (text n i) := hna
    by_cases hi : i < firstDense
    · exact ⟨l, List.sublist_append_right _ _, a, by simp only [glm4Layer, ha, if_pos hi], hna'⟩
    · obtain ⟨l', hs, he⟩ := filter_map_text (fun w => !hasMlp w.name) hna'
      refine ⟨glm4Extra ++ l', List.Sublist.append_left hs _, _, by simp only [glm4Layer, ha, if_neg hi]; rfl, ?_⟩
      rw [List.map_append, List.map_append, he]
      congr 1
  choose L hL hvs using hlayer
  refine pythonWeights_nodup (m := glm4Module) (L := L) (by rfl) (by decide +kernel) n hvs ?_ ?_ ?_ ?_
  · exact fun i t ht => gl t ((hL i).subset ht)
  · exact fun i => (pairs_iff.1 k1).sublist (hL i)
  · exact fun i j t ht u hu => List.all_eq_true.1 (List.all_eq_true.1 k2 t ((hL i).subset ht)) u ((hL j).subset hu)
  · intro o ho i t ht u hu
    have k6 : ((tokNames false none (glm4Module.pre ++ glm4Module.post)).getD []).all (fun t => (glm4Extra ++ l).all (apart sameSure t)) = true := by
      rw [hl']; decide +kernel
    rw [ho] at k6
    exact List.all_eq_true.1 (List.all_eq_true.1 k6 t ht) u ((hL i).subset hu)

/-- What GLM4-MoE asks of a layer with experts: sizes of a small configuration. -/
example : ((pythonWeights glm4Module (glm4Layer glm4Module 2 1) 2).toOption.map List.length) = some 35 := by decide +kernel
example : ((pythonWeights afmoeModule (afmoeLayer afmoeModule 2 3) 2).toOption.map List.length) = some 59 := by decide +kernel

end Verif.Arch
