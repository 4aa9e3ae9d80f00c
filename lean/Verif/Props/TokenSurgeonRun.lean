import Verif.Props.TokenSurgeon

/-! # Transplanting a vocabulary: the command (C60) -/

namespace Verif.Surgeon

open Verif.ModelRef (Str)
open Verif.Tok (NToken Marker normalize)

variable {R : Type} [Zero R] [Add R]

theorem exceptBind_ok {A B : Type} {x : Except Err A} {f : A → Except Err B} {b : B} : x.bind f = .ok b ↔ ∃ a, x = .ok a ∧ f a = .ok b := by
  cases x <;> simp [Except.bind]

/-- The only weight of the list that is an embedding. -/
def TheOne (ws : List Wi) (w : Wi) : Prop := ws.filter (·.isEmbed) = [w]

/-- The first tensor that is there under one of the names. -/
def Stored (store : Str → Option (Emb R)) (names : List Str) (t : Option (Emb R)) : Prop :=
  (∃ n1 n n2, names = n1 ++ n :: n2 ∧ (∀ m ∈ n1, store m = none) ∧ store n = t ∧ t ≠ none) ∨ ((∀ n ∈ names, store n = none) ∧ t = none)

omit [Zero R] [Add R] in
theorem getTensor_iff {store : Str → Option (Emb R)} {names : List Str} {t : Option (Emb R)} : getTensor store names = t ↔ Stored store names t := by
  unfold getTensor Stored
  cases t with
  | none => rw [List.findSome?_eq_none_iff]; simp
  | some t =>
    rw [List.findSome?_eq_some_iff]
    constructor
    · rintro ⟨n1, n, n2, h1, h2, h3⟩; exact Or.inl ⟨n1, n, n2, h1, h3, h2, by simp⟩
    · rintro (⟨n1, n, n2, h1, h2, h3, _⟩ | ⟨_, h⟩)
      · exact ⟨n1, n, n2, h1, h3, h2⟩
      · cases h

theorem theEmbedding_ok {ws : List Wi} {w : Wi} : theEmbedding ws = .ok (some w) ↔ TheOne ws w := by
  unfold theEmbedding TheOne
  split
  · rename_i h; simp [h]
  · rename_i x h; simp [h]
  · rename_i h1 h2
    constructor
    · intro h; cases h
    · intro h; exact absurd h (h2 w)

omit [Zero R] [Add R] in
theorem getEmbedding_ok {store : Str → Option (Emb R)} {w : Option Wi} {tied : Bool} {t : Option (Emb R)} :
    getEmbedding store w tied = .ok t ↔ ∃ x, w = some x ∧ Stored store (x.name :: x.aliases ++ if tied then x.tied else []) t ∧ (t = none → x.optional = true) := by
  unfold getEmbedding
  cases w with
  | none => simp
  | some x =>
    simp only [Option.some.injEq, exists_eq_left', ← getTensor_iff]
    cases getTensor store (x.name :: x.aliases ++ if tied then x.tied else []) with
    | some y =>
      simp only [Except.ok.injEq]
      constructor
      · rintro rfl; simp
      · exact And.left
    | none =>
      cases x.optional <;> simp +contextual [eq_comm]

omit [Zero R] [Add R] in
theorem newMatrix_ok {f : Emb R → Emb R → Except Err (Emb R)} {o d r : Option (Emb R)} :
    newMatrix f o d = .ok r ↔ (o = none ∧ r = none) ∨ ∃ x y z, o = some x ∧ d = some y ∧ f x y = .ok z ∧ r = some z := by
  cases o with
  | none => simp [newMatrix, eq_comm]
  | some x =>
    cases d with
    | none => simp [newMatrix]
    | some y =>
      simp only [newMatrix]
      cases hf : f x y <;> simp [Except.map, hf, eq_comm]

/-- What is written for a weight. -/
def Written (embed head : Wi) (newEmbed newHead : Option (Emb R)) (store : Str → Option (Emb R)) (w : Wi) (t : Option (Emb R)) : Prop :=
  (w.name = embed.name ∧ t = newEmbed) ∨ (w.name ≠ embed.name ∧ w.name = head.name ∧ t = newHead) ∨
    (w.name ≠ embed.name ∧ w.name ≠ head.name ∧ Stored store (w.name :: w.aliases) t)

omit [Zero R] [Add R] in
theorem writeOne_ok {embed head : Wi} {ne nh : Option (Emb R)} {store : Str → Option (Emb R)} {w : Wi} {out : List (Str × Emb R)} :
    writeOne embed head ne nh store w = .ok out ↔ ∃ t, Written embed head ne nh store w t ∧ (t = none → w.optional = true) ∧
      out = t.toList.map (fun t => (w.name, t)) := by
  have key : ∀ t, Written embed head ne nh store w t ↔
      (if w.name = embed.name then ne else if w.name = head.name then nh else getTensor store (w.name :: w.aliases)) = t := by
    intro t
    unfold Written
    rw [← getTensor_iff]
    by_cases h1 : w.name = embed.name
    · rw [if_pos h1]
      constructor
      · rintro (⟨_, h⟩ | ⟨h, _⟩ | ⟨h, _⟩)
        · exact h.symm
        · exact absurd h1 h
        · exact absurd h1 h
      · rintro rfl; exact Or.inl ⟨h1, rfl⟩
    · rw [if_neg h1]
      by_cases h2 : w.name = head.name
      · rw [if_pos h2]
        constructor
        · rintro (⟨h, _⟩ | ⟨_, _, h⟩ | ⟨_, h, _⟩)
          · exact absurd h h1
          · exact h.symm
          · exact absurd h2 h
        · rintro rfl; exact Or.inr (Or.inl ⟨h1, h2, rfl⟩)
      · rw [if_neg h2]
        constructor
        · rintro (⟨h, _⟩ | ⟨_, h, _⟩ | ⟨_, _, h⟩)
          · exact absurd h h1
          · exact absurd h h2
          · exact h
        · intro h; exact Or.inr (Or.inr ⟨h1, h2, h⟩)
  unfold writeOne
  simp only [key, exists_eq_left']
  generalize (if w.name = embed.name then ne else if w.name = head.name then nh else getTensor store (w.name :: w.aliases)) = z
  cases z with
  | some t =>
    simp only [Except.ok.injEq, Option.toList, List.map_cons, List.map_nil, reduceCtorEq, false_imp_iff, true_and]
    exact eq_comm
  | none =>
    cases w.optional
    · simp
    · simp only [if_true, Except.ok.injEq, Option.toList, List.map_nil, imp_self, true_and]
      exact eq_comm

omit [Zero R] [Add R] in
theorem writeAll_ok {embed head : Wi} {ne nh : Option (Emb R)} {store : Str → Option (Emb R)} {ws : List Wi} {out : List (Str × Emb R)} :
    writeAll embed head ne nh store ws = .ok out ↔ ∃ ts, List.Forall₂ (fun w t => Written embed head ne nh store w t ∧ (t = none → w.optional = true)) ws ts ∧
      out = ((ws.zip ts).filterMap (fun e => e.2.map (fun t => (e.1.name, t)))) := by
  induction ws generalizing out with
  | nil =>
    simp only [writeAll, Except.ok.injEq, List.forall₂_nil_left_iff, exists_eq_left, List.zip_nil_right, List.filterMap_nil]
    exact eq_comm
  | cons w ws ih =>
    rw [writeAll, exceptBind_ok]
    constructor
    · rintro ⟨a, h1, h2⟩
      obtain ⟨t, ht, hopt, rfl⟩ := writeOne_ok.mp h1
      cases hr : writeAll embed head ne nh store ws with
      | error e => rw [hr] at h2; cases h2
      | ok r =>
        rw [hr] at h2; cases h2
        obtain ⟨ts, hts, rfl⟩ := ih.mp hr
        refine ⟨t :: ts, .cons ⟨ht, hopt⟩ hts, ?_⟩
        cases t <;> simp
    · rintro ⟨ts, hts, rfl⟩
      cases hts with
      | cons h1 h2 =>
        rename_i t ts
        refine ⟨_, writeOne_ok.mpr ⟨t, h1.1, h1.2, rfl⟩, ?_⟩
        rw [ih.mpr ⟨ts, h2, rfl⟩]
        cases t <;> simp [Except.map]

/-- The new matrix for one of the embeddings: none if the model has none, else built from the model's and the donor's. -/
def NewMatrix (ws : Char → Bool) (byte pre : Bool) (approx : Emb R → Emb R → Approx R) (batch : Option Int) (v donor : Vocab) (junk : List Nat)
    (orig d new : Option (Emb R)) : Prop :=
  (orig = none ∧ new = none) ∨ ∃ x y z, orig = some x ∧ d = some y ∧ new = some z ∧
    build ws byte pre (approx x y) batch x y.rows v donor junk = .ok z

/-- C60: what the command writes.  Each of the model's weights, the embeddings replaced by the transplanted ones, everything else as it is stored, optional
weights only if there.  Bytes and prefixes are matched in a matrix according to `emb` and `head`. -/
def Transplanted (ws : Char → Bool) (o : Options R) (embByte embPrefix headByte headPrefix : Bool) (arch donorArch : Arch)
    (store donorStore : Str → Option (Emb R)) (v donor : Vocab) (junk : List Nat) (out : List (Str × Emb R)) : Prop :=
  ∃ e h de dh oe oh doe doh ne nh, TheOne arch.pre e ∧ TheOne arch.post h ∧ TheOne donorArch.pre de ∧ TheOne donorArch.post dh ∧
    Stored store (e.name :: e.aliases) oe ∧ (oe = none → e.optional = true) ∧ Stored store (h.name :: h.aliases) oh ∧ (oh = none → h.optional = true) ∧
    Stored donorStore (de.name :: de.aliases ++ de.tied) doe ∧ (doe = none → de.optional = true) ∧
    Stored donorStore (dh.name :: dh.aliases ++ dh.tied) doh ∧ (doh = none → dh.optional = true) ∧
    NewMatrix ws embByte embPrefix o.embedApprox o.batch v donor junk oe doe ne ∧
    NewMatrix ws headByte headPrefix o.headApprox o.batch v donor junk oh doh nh ∧
    ∃ ts, List.Forall₂ (fun w t => Written e h ne nh store w t ∧ (t = none → w.optional = true)) (arch.pre ++ arch.layers ++ arch.post) ts ∧
      out = (((arch.pre ++ arch.layers ++ arch.post).zip ts).filterMap (fun x => x.2.map (fun t => (x.1.name, t))))

theorem run_iff {ws : Char → Bool} {o : Options R} {arch donorArch : Arch} {store donorStore : Str → Option (Emb R)} {v donor : Vocab} {junk : List Nat}
    {out : List (Str × Emb R)} : run ws o arch donorArch store donorStore v donor junk = .ok out ↔
      Transplanted ws o (allowedForEmbed o.byteMatch) (allowedForEmbed o.prefixMatch) (allowedForHead o.byteMatch) (allowedForHead o.prefixMatch)
        arch donorArch store donorStore v donor junk out := by
  unfold run Transplanted NewMatrix
  simp only [exceptBind_ok]
  constructor
  · rintro ⟨e, he, h, hh, oe, hoe, oh, hoh, de, hde, dh, hdh, doe, hdoe, doh, hdoh, ne, hne, nh, hnh, hw⟩
    obtain ⟨e, rfl, s1, p1⟩ := getEmbedding_ok.mp hoe
    obtain ⟨h, rfl, s2, p2⟩ := getEmbedding_ok.mp hoh
    obtain ⟨de, rfl, s3, p3⟩ := getEmbedding_ok.mp hdoe
    obtain ⟨dh, rfl, s4, p4⟩ := getEmbedding_ok.mp hdoh
    refine ⟨e, h, de, dh, oe, oh, doe, doh, ne, nh, theEmbedding_ok.mp he, theEmbedding_ok.mp hh, theEmbedding_ok.mp hde, theEmbedding_ok.mp hdh,
      by simpa using s1, p1, by simpa using s2, p2, by simpa using s3, p3, by simpa using s4, p4, ?_, ?_, writeAll_ok.mp hw⟩
    · rcases newMatrix_ok.mp hne with h | ⟨x, y, z, h1, h2, h3, h4⟩
      · exact Or.inl h
      · exact Or.inr ⟨x, y, z, h1, h2, h4, h3⟩
    · rcases newMatrix_ok.mp hnh with h | ⟨x, y, z, h1, h2, h3, h4⟩
      · exact Or.inl h
      · exact Or.inr ⟨x, y, z, h1, h2, h4, h3⟩
  · rintro ⟨e, h, de, dh, oe, oh, doe, doh, ne, nh, he, hh, hde, hdh, s1, p1, s2, p2, s3, p3, s4, p4, n1, n2, hw⟩
    refine ⟨some e, theEmbedding_ok.mpr he, some h, theEmbedding_ok.mpr hh, oe, getEmbedding_ok.mpr ⟨e, rfl, by simpa using s1, p1⟩,
      oh, getEmbedding_ok.mpr ⟨h, rfl, by simpa using s2, p2⟩, some de, theEmbedding_ok.mpr hde, some dh, theEmbedding_ok.mpr hdh,
      doe, getEmbedding_ok.mpr ⟨de, rfl, by simpa using s3, p3⟩, doh, getEmbedding_ok.mpr ⟨dh, rfl, by simpa using s4, p4⟩, ne, newMatrix_ok.mpr ?_,
      nh, newMatrix_ok.mpr ?_, writeAll_ok.mpr hw⟩
    · rcases n1 with h | ⟨x, y, z, h1, h2, h3, h4⟩
      · exact Or.inl h
      · exact Or.inr ⟨x, y, z, h1, h2, h4, h3⟩
    · rcases n2 with h | ⟨x, y, z, h1, h2, h3, h4⟩
      · exact Or.inl h
      · exact Or.inr ⟨x, y, z, h1, h2, h4, h3⟩

/-- The matrices an option is meant for. -/
def MeantForEmbed (m : AllowMatch) : Bool := m = .yes || m = .embedOnly

/-- The matrices an option is meant for. -/
def MeantForHead (m : AllowMatch) : Bool := m = .yes || m = .lmHeadOnly

/-- The options that do not tell the two matrices apart. -/
def Both (m : AllowMatch) : Prop := m = .yes ∨ m = .no

/-- C60: a finished run, with options for both matrices. -/
theorem C60_run_partial {ws : Char → Bool} {o : Options R} {arch donorArch : Arch} {store donorStore : Str → Option (Emb R)} {v donor : Vocab}
    {junk : List Nat} {out : List (Str × Emb R)} (hb : Both o.byteMatch) (hp : Both o.prefixMatch) :
    run ws o arch donorArch store donorStore v donor junk = .ok out ↔
      Transplanted ws o (MeantForEmbed o.byteMatch) (MeantForEmbed o.prefixMatch) (MeantForHead o.byteMatch) (MeantForHead o.prefixMatch)
        arch donorArch store donorStore v donor junk out := by
  rw [run_iff]
  have h1 : ∀ m, Both m → allowedForEmbed m = MeantForEmbed m ∧ allowedForHead m = MeantForHead m := by
    rintro m (rfl | rfl) <;> decide
  rw [(h1 _ hb).1, (h1 _ hb).2, (h1 _ hp).1, (h1 _ hp).2]

/-- C60, refuted for options that are meant for one matrix: they act on the other one. -/
theorem C60_swapped {ws : Char → Bool} {o : Options R} {arch donorArch : Arch} {store donorStore : Str → Option (Emb R)} {v donor : Vocab}
    {junk : List Nat} {out : List (Str × Emb R)} (hb : ¬ Both o.byteMatch) (hp : ¬ Both o.prefixMatch) :
    run ws o arch donorArch store donorStore v donor junk = .ok out ↔
      Transplanted ws o (MeantForHead o.byteMatch) (MeantForHead o.prefixMatch) (MeantForEmbed o.byteMatch) (MeantForEmbed o.prefixMatch)
        arch donorArch store donorStore v donor junk out := by
  rw [run_iff]
  have h1 : ∀ m, ¬ Both m → allowedForEmbed m = MeantForHead m ∧ allowedForHead m = MeantForEmbed m := by
    intro m hm
    cases m
    · decide
    · decide
    · exact absurd (Or.inl rfl) hm
    · exact absurd (Or.inr rfl) hm
  rw [(h1 _ hb).1, (h1 _ hb).2, (h1 _ hp).1, (h1 _ hp).2]

/-- C60: an architecture without an output embedding cannot be transplanted. -/
theorem C60_no_head {ws : Char → Bool} {o : Options R} {arch donorArch : Arch} {store donorStore : Str → Option (Emb R)} {v donor : Vocab}
    {junk : List Nat} {out : List (Str × Emb R)} (h : ∀ w ∈ arch.post, w.isEmbed = false) :
    run ws o arch donorArch store donorStore v donor junk ≠ .ok out := by
  intro hr
  obtain ⟨e, hd, de, dh, oe, oh, doe, doh, ne, nh, he, hh, _⟩ := run_iff.mp hr
  have : hd ∈ arch.post.filter (·.isEmbed) := by rw [show arch.post.filter (·.isEmbed) = [hd] from hh]; simp
  rw [List.mem_filter] at this
  rw [h hd this.1] at this
  cases this.2

/-! ## A small case -/

/-- Two embeddings and a layer. -/
def arch0 : Arch :=
  { pre := [⟨cs!"embed", false, true, [], []⟩], layers := [⟨cs!"layer", false, false, [], []⟩, ⟨cs!"bias", true, false, [], []⟩],
    post := [⟨cs!"head", true, true, [], [cs!"embed"]⟩] }

/-- The model's tensors: row `i` of the embedding is `10 + i`, of the head `20 + i`. -/
def store0 : Str → Option (Emb Int) := fun n =>
  if n = cs!"embed" then some ⟨3, fun i => 10 + i⟩ else if n = cs!"head" then some ⟨3, fun i => 20 + i⟩ else if n = cs!"layer" then some ⟨1, fun _ => 7⟩ else none

/-- The donor has tied embeddings. -/
def store1 : Str → Option (Emb Int) := fun n => if n = cs!"embed" then some ⟨4, fun i => 30 + i⟩ else none

/-- The model's tokens: `ab`, the byte token of `A`, and `x`. -/
def vocab0 : Vocab := [((none, cs!"ab"), 0), ((none, cs!"<0x41>"), 1), ((some .wordStart, cs!"x"), 2)]

/-- The donor's tokens: `A`, `ab`, ` xy` and `q`. -/
def vocab1 : Vocab := [((none, cs!"A"), 2), ((none, cs!"ab"), 0), ((some .wordStart, cs!"xy"), 1), ((none, cs!"q"), 3)]

/-- Approximate by one hundred. -/
def hundred : Approx Int := { compute := fun ts => .ok (ts.map (fun _ => 100)), shared := false, noise := none, scale := none }

/-- The options of the example. -/
def opts0 (b p : AllowMatch) : Options Int :=
  { prefixMatch := p, byteMatch := b, batch := some 1, embedApprox := fun _ _ => hundred, headApprox := fun _ _ => hundred }

/-- The rows of the matrices written. -/
def written0 (b p : AllowMatch) : Option (List (Str × List Int)) :=
  ((run (fun c => decide (c = ' ')) (opts0 b p) arch0 arch0 store0 store1 vocab0 vocab1 []).toOption).map
    (fun l => l.map (fun e => (e.1, (List.range e.2.rows).map e.2.row)))

example : written0 .yes .yes = some [(cs!"embed", [10, 12, 11, 100]), (cs!"layer", [7]), (cs!"head", [20, 22, 21, 100])] := by decide +kernel

/-- Bytes for the input embedding only, prefixes for the output embedding only: it is the other way round. -/
example : written0 .embedOnly .lmHeadOnly = some [(cs!"embed", [10, 12, 100, 100]), (cs!"layer", [7]), (cs!"head", [20, 100, 21, 100])] := by decide +kernel

example : Complete hundred ∧ (vocab0.map Prod.fst).Nodup ∧ (vocab1.map Prod.fst).Nodup ∧ (vocab1.map Prod.snd).Nodup ∧ ∀ e ∈ vocab1, Regular e.1 := by
  refine ⟨fun ts rs h => by cases h; simp, by decide, by decide, by decide, ?_⟩
  intro e he a b hab
  simp only [vocab1, List.mem_cons, List.not_mem_nil, or_false] at he
  rcases he with rfl | rfl | rfl | rfl <;> cases hab

/-- The mean of the rows for two unknown tokens, with noise. -/
example : (build (fun _ => false) false false { compute := fun ts => .ok (ts.map (fun _ => (5 : Int))), shared := true, noise := some (fun _ _ => 1), scale := none }
    none ⟨1, fun _ => (5 : Int)⟩ 2 [((none, cs!"a"), 0)] [((none, cs!"p"), 0), ((none, cs!"q"), 1)] []).toOption.isNone = true := by decide +kernel

/-- Two special tokens of one kind, known to both models: the first one's row is lost. -/
example : ((build (fun _ => false) false false hundred none ⟨3, fun i => 10 + (i : Int)⟩ 2
      (normalizedDict [(cs!"extra", [cs!"<a>", cs!"<b>"])] cs!"_" [(cs!"<a>", 0), (cs!"<b>", 1)])
      (normalizedDict [(cs!"extra", [cs!"<a>", cs!"<b>"])] cs!"_" [(cs!"<a>", 0), (cs!"<b>", 1)]) []).toOption.map (fun e => (List.range e.rows).map e.row)) =
    some [0, 11] := by decide +kernel

end Verif.Surgeon
