import Verif.Props.LoraWhole

/-! # C129: when an extraction succeeds -/

namespace Verif.Lora

open Verif.ModelRef (Str)

section
variable {T : Type} [Sub T] {arch : Str → Option Bool} {base model : Str → Option T} {decomp : Bool → T → T × T} {rows : T → Nat} {o : Opts} {ms : List Module}

/-- All tensors that are needed are there: of a module saved at full rank those the architecture requires of the fine-tuned model, of a decomposed one the weights of both models, and their biases if the
architecture lists one. -/
structure Stocked (arch : Str → Option Bool) (base model : Str → Option T) (o : Opts) (ms : List Module) : Prop where
  whole : ∀ m ∈ ms, Whole o m → ∀ e ∈ [cs!".weight", cs!".bias"], arch (m.name ++ e) = some false → model (m.name ++ e) ≠ none
  weight : ∀ m ∈ ms, Split o m → base (m.name ++ cs!".weight") ≠ none ∧ model (m.name ++ cs!".weight") ≠ none
  bias : ∀ m ∈ ms, Split o m → arch (m.name ++ cs!".bias") ≠ none → base (m.name ++ cs!".bias") ≠ none ∧ model (m.name ++ cs!".bias") ≠ none

theorem saveModule_total {m : Module} {act : Action} (hr : Right o m act) :
    (∃ out, saveModule arch base model decomp (m, act) = .ok out) ↔
      (Whole o m → ∀ e ∈ [cs!".weight", cs!".bias"], arch (m.name ++ e) = some false → model (m.name ++ e) ≠ none) ∧
      (Split o m → base (m.name ++ cs!".weight") ≠ none ∧ model (m.name ++ cs!".weight") ≠ none) ∧
      (Split o m → arch (m.name ++ cs!".bias") ≠ none → base (m.name ++ cs!".bias") ≠ none ∧ model (m.name ++ cs!".bias") ≠ none) := by
  rcases hr with ⟨hw, rfl⟩ | ⟨hn, hd, rfl⟩ | ⟨hn, hd, rfl⟩
  · have hs : ¬ Split o m := fun h => h.1 hw
    show (∃ out, saveFull arch model m.name = .ok out) ↔ _
    constructor
    · rintro ⟨out, h⟩
      obtain ⟨h1, h2, -⟩ := C80_full.1 h
      refine ⟨fun _ e he ha hm => ?_, fun h => absurd h hs, fun h => absurd h hs⟩
      simp only [List.mem_cons, List.not_mem_nil, or_false] at he
      rcases he with rfl | rfl
      · exact h1 hm ha
      · exact h2 hm ha
    · rintro ⟨h, -, -⟩
      exact ⟨_, C80_full.2 ⟨fun hm ha => h hw _ (by simp) ha hm, fun hm ha => h hw _ (by simp) ha hm, rfl⟩⟩
  · have hs : Split o m := ⟨hn, hd⟩
    have hw : ¬ Whole o m := hn
    show (∃ out, saveLora arch base model decomp (decide (m.kind = .embedding)) m.name = .ok out) ↔ _
    constructor
    · rintro ⟨out, h⟩
      obtain ⟨x, y, hx, hy, h⟩ := C80_lora_partial.1 h
      refine ⟨fun h => absurd h hw, fun _ => by rw [hx, hy]; exact ⟨by simp, by simp⟩, fun _ ha => ?_⟩
      rcases h with ⟨h, -⟩ | ⟨-, xb, yb, hxb, hyb, -⟩
      · exact absurd h ha
      · rw [hxb, hyb]; exact ⟨by simp, by simp⟩
    · rintro ⟨-, h, hb⟩
      obtain ⟨x, hx⟩ := Option.ne_none_iff_exists'.1 (h hs).1
      obtain ⟨y, hy⟩ := Option.ne_none_iff_exists'.1 (h hs).2
      by_cases ha : arch (m.name ++ cs!".bias") = none
      · exact ⟨_, C80_lora_partial.2 ⟨x, y, hx, hy, Or.inl ⟨ha, rfl⟩⟩⟩
      · obtain ⟨xb, hxb⟩ := Option.ne_none_iff_exists'.1 (hb hs ha).1
        obtain ⟨yb, hyb⟩ := Option.ne_none_iff_exists'.1 (hb hs ha).2
        exact ⟨_, C80_lora_partial.2 ⟨x, y, hx, hy, Or.inr ⟨ha, xb, yb, hxb, hyb, rfl⟩⟩⟩
  · have hw : ¬ Whole o m := hn
    have hs : ¬ Split o m := fun h => hd h.2
    exact ⟨fun _ => ⟨fun h => absurd h hw, fun h => absurd h hs, fun h => absurd h hs⟩, fun _ => ⟨[], rfl⟩⟩

theorem adapter_total {acts : List (Module × Action)} : (∃ ts, adapter arch base model decomp acts = .ok ts) ↔ ∀ e ∈ acts, ∃ out, saveModule arch base model decomp e = .ok out := by
  constructor
  · rintro ⟨ts, h⟩ e he
    obtain ⟨os, hos, -⟩ := C80_all.1 h
    obtain ⟨out, -, hs⟩ := forall₂_left hos e he
    exact ⟨out, hs⟩
  · intro h
    have : ∃ os, List.Forall₂ (fun a o => saveModule arch base model decomp a = .ok o) acts os := by
      induction acts with
      | nil => exact ⟨[], .nil⟩
      | cons e acts ih =>
        obtain ⟨out, ho⟩ := h e (by simp)
        obtain ⟨os, hos⟩ := ih (fun e he => h e (List.mem_cons_of_mem _ he))
        exact ⟨out :: os, .cons ho hos⟩
    obtain ⟨os, hos⟩ := this
    exact ⟨_, C80_all.2 ⟨os, hos, rfl⟩⟩

/-- **C129** An extraction for which no modules are listed succeeds exactly if all tensors that are needed are there and at least one module is to be decomposed. -/
theorem C129_runs (hu : Uniform o ms) :
    (∃ a, extract arch base model decomp rows o [] ms = .ok a) ↔ Stocked arch base model o ms ∧ ∃ m ∈ ms, Split o m := by
  obtain ⟨save, acts, hpl, hfst, hright, -⟩ := C79_unlisted_partial hu
  have hmem : ∀ e ∈ acts, e.1 ∈ ms := fun e he => hfst ▸ List.mem_map.2 ⟨e, he, rfl⟩
  have hact : ∀ m ∈ ms, ∃ act, (m, act) ∈ acts := by
    intro m hm
    rw [← hfst] at hm
    obtain ⟨⟨m', act⟩, he, rfl⟩ := List.mem_map.1 hm
    exact ⟨act, he⟩
  have hstock : Stocked arch base model o ms ↔ ∀ e ∈ acts, ∃ out, saveModule arch base model decomp e = .ok out := by
    constructor
    · rintro ⟨h1, h2, h3⟩ ⟨m, act⟩ he
      exact (saveModule_total (hright _ he)).2 ⟨h1 m (hmem _ he), h2 m (hmem _ he), h3 m (hmem _ he)⟩
    · intro h
      refine ⟨?_, ?_, ?_⟩ <;> intro m hm <;> obtain ⟨act, he⟩ := hact m hm
      · exact ((saveModule_total (hright _ he)).1 (h _ he)).1
      · exact ((saveModule_total (hright _ he)).1 (h _ he)).2.1
      · exact ((saveModule_total (hright _ he)).1 (h _ he)).2.2
  constructor
  · rintro ⟨a, h⟩
    unfold extract at h
    rw [hpl] at h
    simp only at h
    cases had : adapter arch base model decomp acts with
    | error e => rw [had] at h; cases h
    | ok ts =>
      rw [had] at h
      simp only at h
      refine ⟨hstock.2 (adapter_total.1 ⟨ts, had⟩), ?_⟩
      cases hc : makeConfig (ranks base model decomp rows acts) save with
      | error e => rw [hc] at h; cases h
      | ok c =>
        obtain ⟨x, hx⟩ := List.exists_mem_of_ne_nil _ ((C59_config_total _ _).1 ⟨c, hc⟩)
        obtain ⟨m, b, f, he, -⟩ := mem_ranks.1 hx
        refine ⟨m, hmem _ he, ?_⟩
        rcases hright _ he with ⟨_, hn⟩ | ⟨hn, hd, _⟩ | ⟨_, _, hn⟩
        · cases hn
        · exact ⟨hn, hd⟩
        · cases hn
  · rintro ⟨hs, m, hm, hsp⟩
    obtain ⟨ts, had⟩ := adapter_total.2 (hstock.1 hs)
    obtain ⟨act, he⟩ := hact m hm
    have hl : act = .lora := by
      rcases hright _ he with ⟨hn, _⟩ | ⟨_, _, h⟩ | ⟨_, hn, _⟩
      · exact absurd hn hsp.1
      · exact h
      · exact absurd hsp.2 hn
    subst hl
    obtain ⟨b, hb⟩ := Option.ne_none_iff_exists'.1 (hs.weight m hm hsp).1
    obtain ⟨f, hf⟩ := Option.ne_none_iff_exists'.1 (hs.weight m hm hsp).2
    obtain ⟨c, hc⟩ := (C59_config_total (ranks base model decomp rows acts) save).2 (List.ne_nil_of_mem (mem_ranks.2 ⟨m, b, f, he, hb, hf, rfl⟩))
    refine ⟨⟨ts, c⟩, ?_⟩
    unfold extract
    rw [hpl]
    simp only [had, hc]

end

/-! ## The hypotheses can be met -/

theorem small_stocked : Stocked (fun n => if n = cs!"model.0.q.bias" then some true else none) before after defaults small := by
  have hb : ∀ n, before n ≠ none := by
    intro n
    unfold before
    split <;> simp
  have hf : ∀ n, after n ≠ none := by
    intro n
    unfold after
    split
    · simp
    · split <;> simp
  exact ⟨fun _ _ _ _ _ _ => hf _, fun _ _ _ => ⟨hb _, hf _⟩, fun _ _ _ _ => ⟨hb _, hf _⟩⟩

example (decomp : Bool → Mat → Mat × Mat) : ∃ a, extract (fun n => if n = cs!"model.0.q.bias" then some true else none) before after decomp Mat.rows defaults [] small = .ok a :=
  (C129_runs (by unfold Uniform; decide +kernel)).2 ⟨small_stocked, ⟨cs!"model.0.q", .linear, true, false⟩, by decide +kernel, by unfold Split Whole Decomposed; decide +kernel⟩

/-- Nothing can be decomposed. -/
example (decomp : Bool → Mat → Mat × Mat) : ¬ ∃ a, extract (fun _ => none) before after decomp Mat.rows defaults [] [⟨cs!"norm", .other, true, false⟩] = .ok a := by
  rw [C129_runs (by unfold Uniform; decide +kernel)]
  rintro ⟨-, h⟩
  revert h
  unfold Split Whole Decomposed
  decide +kernel

end Verif.Lora
