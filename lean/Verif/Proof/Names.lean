import Verif.Model.Writer

/-! # File names: the generated names never clash -/

namespace Verif.Writer

theorem repr_toList (n : Nat) : (Nat.repr n).toList = Nat.toDigits 10 n := by
  simp [Nat.repr]

theorem digits_all (n : Nat) : ∀ c ∈ Nat.toDigits 10 n, c.isDigit = true :=
  fun _ hc => Nat.isDigit_of_mem_toDigits (by decide) (by decide) hc

theorem pad5_toList (n : Nat) :
    (pad5 n).toList = List.replicate (5 - (Nat.repr n).length) '0' ++ Nat.toDigits 10 n := by
  simp [pad5, repr_toList]

theorem pad5_all (n : Nat) : ∀ c ∈ (pad5 n).toList, c.isDigit = true := by
  intro c hc
  rw [pad5_toList, List.mem_append] at hc
  rcases hc with h | h
  · rw [(List.mem_replicate.1 h).2]; decide
  · exact digits_all n c h

theorem pad5_inj {m n : Nat} (h : pad5 m = pad5 n) : m = n := by
  have h' := congrArg (fun s => Nat.ofDigitChars 10 s.toList 0) h
  simp only [pad5_toList, Nat.ofDigitChars_append, Nat.ofDigitChars_replicate_zero,
    Nat.mul_zero, Nat.ofDigitChars_ten_toDigits] at h'
  exact h'

theorem toDigits_ne_nil (n : Nat) : Nat.toDigits 10 n ≠ [] := by
  intro h
  have h0 := Nat.ofDigitChars_ten_toDigits (n := n)
  have h1 := Nat.ofDigitChars_ten_toDigits (n := 0)
  rw [h, Nat.ofDigitChars_nil] at h0
  subst h0
  simp [Nat.toDigits, Nat.toDigitsCore] at h

/-- Runs of digits delimited by a non-digit are determined. -/
theorem digits_cancel {A B : List Char} {c d : Char} {r s : List Char}
    (hA : ∀ x ∈ A, x.isDigit = true) (hB : ∀ x ∈ B, x.isDigit = true)
    (hc : c.isDigit = false) (hd : d.isDigit = false) (h : A ++ c :: r = B ++ d :: s) :
    A = B ∧ c = d ∧ r = s := by
  induction A generalizing B with
  | nil =>
    cases B with
    | nil => simpa using h
    | cons b B =>
      simp only [List.nil_append, List.cons_append, List.cons.injEq] at h
      have := hB b (by simp)
      rw [← h.1, hc] at this; cases this
  | cons a A ih =>
    cases B with
    | nil =>
      simp only [List.nil_append, List.cons_append, List.cons.injEq] at h
      have := hA a (by simp)
      rw [h.1, hd] at this; cases this
    | cons b B =>
      simp only [List.cons_append, List.cons.injEq] at h
      obtain ⟨h1, h2, h3⟩ := ih (fun x hx => hA x (by simp [hx])) (fun x hx => hB x (by simp [hx])) h.2
      exact ⟨by rw [h.1, h1], h2, h3⟩

theorem tmpName_toList (p e : String) (i : Nat) :
    (tmpName p e i).toList = p.toList ++ '-' :: (Nat.toDigits 10 (i + 1) ++ '.' :: e.toList) := by
  simp [tmpName, repr_toList]

theorem finalName_toList (p e : String) (i n : Nat) :
    (finalName p e i n).toList =
      p.toList ++ '-' :: ((pad5 (i + 1)).toList ++ '-' :: ('o' :: 'f' :: '-' :: ((pad5 n).toList ++ '.' :: e.toList))) := by
  simp [finalName]

theorem singleName_toList (p e : String) : (singleName p e).toList = p.toList ++ '.' :: e.toList := by
  simp [singleName]

theorem indexName_toList (p e : String) :
    (indexName p e).toList = p.toList ++ '.' :: (e.toList ++ ".index.json".toList) := by
  simp [indexName]

theorem tmpName_inj {p e : String} {i j : Nat} (h : tmpName p e i = tmpName p e j) : i = j := by
  have h := congrArg String.toList h
  rw [tmpName_toList, tmpName_toList] at h
  have h := List.append_cancel_left h
  simp only [List.cons.injEq, true_and] at h
  obtain ⟨h, _⟩ := digits_cancel (digits_all _) (digits_all _) (by decide) (by decide) h
  have := congrArg (fun l => Nat.ofDigitChars 10 l 0) h
  simp only [Nat.ofDigitChars_ten_toDigits] at this
  omega

theorem finalName_inj {p e : String} {i j n : Nat} (h : finalName p e i n = finalName p e j n) : i = j := by
  have h := congrArg String.toList h
  rw [finalName_toList, finalName_toList] at h
  have h := List.append_cancel_left h
  simp only [List.cons.injEq, true_and] at h
  obtain ⟨h, _⟩ := digits_cancel (pad5_all _) (pad5_all _) (by decide) (by decide) h
  have := pad5_inj (String.toList_injective h)
  omega

theorem tmpName_ne_finalName {p e : String} {i j n : Nat} : tmpName p e i ≠ finalName p e j n := by
  intro h
  have h := congrArg String.toList h
  rw [finalName_toList, tmpName_toList] at h
  have h := List.append_cancel_left h
  simp only [List.cons.injEq, true_and] at h
  obtain ⟨_, h, _⟩ := digits_cancel (digits_all _) (pad5_all _) (by decide) (by decide) h
  exact absurd h (by decide)

theorem tmpName_ne_singleName {p e : String} {i : Nat} : tmpName p e i ≠ singleName p e := by
  intro h
  have h := congrArg String.toList h
  rw [singleName_toList, tmpName_toList] at h
  have h := List.append_cancel_left h
  simp at h

theorem tmpName_ne_indexName {p e : String} {i : Nat} : tmpName p e i ≠ indexName p e := by
  intro h
  have h := congrArg String.toList h
  rw [indexName_toList, tmpName_toList] at h
  have h := List.append_cancel_left h
  simp at h

theorem finalName_ne_indexName {p e : String} {i n : Nat} : finalName p e i n ≠ indexName p e := by
  intro h
  have h := congrArg String.toList h
  rw [indexName_toList, finalName_toList] at h
  have h := List.append_cancel_left h
  simp at h

/-- The names a reader looks at (lazy_tensor_loader.py:36-43). -/
def readerNames : List String :=
  ["model.safetensors", "model.safetensors.index.json", "pytorch_model.bin", "pytorch_model.bin.index.json"]

/-- A name ending in a digit, a dot and an extension of the writer is not among them. -/
theorem digit_ext_not_reader (A : List Char) (d : Char) (hd : d.isDigit = true) (safe : Bool) (s : String)
    (h : s.toList = A ++ d :: '.' :: (if safe then "safetensors" else "bin").toList) : s ∉ readerNames := by
  intro hs
  have hp : s.toList = (A ++ [d]) ++ '.' :: (if safe then "safetensors" else "bin").toList := by rw [h]; simp
  have hp' : ('.' :: (if safe then "safetensors" else "bin").toList) <:+ s.toList := ⟨_, hp.symm⟩
  have last : ∀ l : List Char, A ++ [d] = l ++ ['l'] → False := by
    intro l hl
    have := List.append_inj_right' hl rfl
    simp only [List.cons.injEq, and_true] at this
    subst this
    exact absurd hd (by decide)
  simp only [readerNames, List.mem_cons, List.not_mem_nil, or_false] at hs
  rcases hs with rfl | rfl | rfl | rfl <;> cases safe
  · exact absurd hp' (by decide)
  · have : "model.safetensors".toList = ("mode".toList ++ ['l']) ++ '.' :: "safetensors".toList := by decide
    rw [this] at hp
    exact last _ (List.append_cancel_right hp).symm
  · exact absurd hp' (by decide)
  · exact absurd hp' (by decide)
  · have : "pytorch_model.bin".toList = ("pytorch_mode".toList ++ ['l']) ++ '.' :: "bin".toList := by decide
    rw [this] at hp
    exact last _ (List.append_cancel_right hp).symm
  · exact absurd hp' (by decide)
  · exact absurd hp' (by decide)
  · exact absurd hp' (by decide)

theorem conf_ext (c : Conf) : c.ext = if c.safeSerialization then "safetensors" else "bin" := rfl

theorem tmpName_not_reader (c : Conf) (i : Nat) : tmpName c.pre c.ext i ∉ readerNames := by
  obtain ⟨l, d, hl⟩ := List.eq_nil_or_concat (Nat.toDigits 10 (i + 1)) |>.resolve_left (toDigits_ne_nil _)
  apply digit_ext_not_reader (c.pre.toList ++ '-' :: l) d
    (digits_all (i + 1) d (by rw [hl]; simp)) c.safeSerialization
  rw [tmpName_toList, hl, conf_ext]
  simp

theorem finalName_not_reader (c : Conf) (i n : Nat) : finalName c.pre c.ext i n ∉ readerNames := by
  obtain ⟨l, d, hl⟩ := List.eq_nil_or_concat (Nat.toDigits 10 n) |>.resolve_left (toDigits_ne_nil _)
  apply digit_ext_not_reader (c.pre.toList ++ '-' :: ((pad5 (i + 1)).toList ++ '-' :: 'o' :: 'f' :: '-' ::
    (List.replicate (5 - (Nat.repr n).length) '0' ++ l))) d
    (digits_all n d (by rw [hl]; simp)) c.safeSerialization
  rw [finalName_toList, pad5_toList n, hl, conf_ext]
  simp

/-- The base name is the one the reader looks for. -/
def Conf.Standard (c : Conf) : Prop := c.pre = if c.safeSerialization then "model" else "pytorch_model"

theorem singleName_reader (c : Conf) : singleName c.pre c.ext ∈ readerNames →
    c.Standard ∧ singleName c.pre c.ext = (if c.safeSerialization then "model.safetensors" else "pytorch_model.bin") := by
  intro h
  have key : ∀ (s p : String), s ∈ readerNames → ∀ safe : Bool,
      s.toList = p.toList ++ '.' :: (if safe then "safetensors" else "bin").toList →
      p.toList = (if safe then "model" else "pytorch_model").toList ∧
        s = (if safe then "model.safetensors" else "pytorch_model.bin") := by
    intro s p hs safe hp
    have hp' : ('.' :: (if safe then "safetensors" else "bin").toList) <:+ s.toList := ⟨_, hp.symm⟩
    simp only [readerNames, List.mem_cons, List.not_mem_nil, or_false] at hs
    rcases hs with rfl | rfl | rfl | rfl <;> cases safe
    · exact absurd hp' (by decide)
    · have : "model.safetensors".toList = "model".toList ++ '.' :: "safetensors".toList := by decide
      rw [this] at hp
      exact ⟨(List.append_cancel_right hp).symm, rfl⟩
    · exact absurd hp' (by decide)
    · exact absurd hp' (by decide)
    · have : "pytorch_model.bin".toList = "pytorch_model".toList ++ '.' :: "bin".toList := by decide
      rw [this] at hp
      exact ⟨(List.append_cancel_right hp).symm, rfl⟩
    · exact absurd hp' (by decide)
    · exact absurd hp' (by decide)
    · exact absurd hp' (by decide)
  obtain ⟨h1, h2⟩ := key _ c.pre h c.safeSerialization (by rw [singleName_toList, conf_ext])
  exact ⟨String.toList_injective h1, h2⟩

theorem indexName_reader (c : Conf) : indexName c.pre c.ext ∈ readerNames →
    c.Standard ∧ indexName c.pre c.ext =
      (if c.safeSerialization then "model.safetensors" else "pytorch_model.bin") ++ ".index.json" := by
  intro h
  have key : ∀ (s p : String), s ∈ readerNames → ∀ safe : Bool,
      s.toList = p.toList ++ '.' :: ((if safe then "safetensors" else "bin").toList ++ ".index.json".toList) →
      p.toList = (if safe then "model" else "pytorch_model").toList ∧
        s = (if safe then "model.safetensors" else "pytorch_model.bin") ++ ".index.json" := by
    intro s p hs safe hp
    have hp' : ('.' :: ((if safe then "safetensors" else "bin").toList ++ ".index.json".toList)) <:+ s.toList :=
      ⟨_, hp.symm⟩
    simp only [readerNames, List.mem_cons, List.not_mem_nil, or_false] at hs
    rcases hs with rfl | rfl | rfl | rfl <;> cases safe
    · exact absurd hp' (by decide)
    · exact absurd hp' (by decide)
    · exact absurd hp' (by decide)
    · have : "model.safetensors.index.json".toList =
        "model".toList ++ '.' :: ("safetensors".toList ++ ".index.json".toList) := by decide
      rw [this] at hp
      exact ⟨(List.append_cancel_right hp).symm, by decide⟩
    · exact absurd hp' (by decide)
    · exact absurd hp' (by decide)
    · have : "pytorch_model.bin.index.json".toList =
        "pytorch_model".toList ++ '.' :: ("bin".toList ++ ".index.json".toList) := by decide
      rw [this] at hp
      exact ⟨(List.append_cancel_right hp).symm, by decide⟩
    · exact absurd hp' (by decide)
  obtain ⟨h1, h2⟩ := key _ c.pre h c.safeSerialization (by rw [indexName_toList, conf_ext])
  exact ⟨String.toList_injective h1, h2⟩

theorem standard_single {c : Conf} (h : c.Standard) :
    singleName c.pre c.ext = (if c.safeSerialization then "model.safetensors" else "pytorch_model.bin") := by
  unfold Conf.Standard at h
  rw [h, conf_ext]
  cases c.safeSerialization <;> decide

theorem standard_index {c : Conf} (h : c.Standard) :
    indexName c.pre c.ext = (if c.safeSerialization then "model.safetensors" else "pytorch_model.bin") ++ ".index.json" := by
  unfold Conf.Standard at h
  rw [h, conf_ext]
  cases c.safeSerialization <;> decide

end Verif.Writer
