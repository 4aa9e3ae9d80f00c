import Verif.Model.MoeMain
import Verif.Props.MainLora
import Verif.Props.MoeFinishes

/-! # C141: `mergekit-moe` from the command line and the document to the files -/

set_option linter.unusedSectionVars false

namespace Verif.Main

open Verif.ModelRef (Str Ref)
open Verif.Document
open Verif.CommandLine (Line Enough Called Event meaning valuesOf marksOf settings Setting)
open Verif.Moe (OutArch Env Dir Flags Sound OutType className countKey changedKeys Keeps RowOf Saves padded selectArch)

variable {K V T : Type}

/-! ## What is claimed -/

/-- `{source_model: .., positive_prompts: [..], negative_prompts: [..], noise_scale: .., residual_scale: ..}`. -/
inductive ExpertSays (L : Lib K) : Doc K → Moe.Expert Ref K → Prop
  | mk {d m p n s r} : Has RefSays d cs!"source_model" m → Maybe (Listed Text) (d.lookup cs!"positive_prompts") p → Maybe (Listed Text) (d.lookup cs!"negative_prompts") n →
      Maybe (Number L) (d.lookup cs!"noise_scale") s → Maybe (Number L) (d.lookup cs!"residual_scale") r → ExpertSays L (.dict d) ⟨m, p, n, s, r⟩

/-- A document for a mixture: the configuration, and the data type. -/
structure MoeSays (L : Lib K) (d : List (Str × Doc K)) (c : Moe.Config Ref K) (dtype : Option Str) : Prop where
  base : Has RefSays d cs!"base_model" c.base
  experts : Has (Listed (ExpertSays L)) d cs!"experts" c.experts
  mode : Default cs!"hidden" Text (d.lookup cs!"gate_mode") c.gateMode
  dtype : Maybe Text (d.lookup cs!"dtype") dtype
  perToken : Default 2 (Integer L) (d.lookup cs!"experts_per_token") c.expertsPerToken
  shared : Maybe (Listed (ExpertSays L)) (d.lookup cs!"shared_experts") c.shared
  architecture : Maybe Text (d.lookup cs!"architecture") c.architecture

/-- What a line of `mergekit-moe` asks for. -/
structure MoeAsked where
  four : Bool
  eight : Bool
  same : Bool
  tokenizer : Bool
  card : Bool

/-- Reading it off the options on the line. -/
structure AsksMoe (es : List Event) (q : MoeAsked) : Prop where
  four : (marksOf (plainFlag cs!"load_in_4bit" cs!"load-in-4bit") es).getLast?.getD false = q.four
  eight : (marksOf (plainFlag cs!"load_in_8bit" cs!"load-in-8bit") es).getLast?.getD false = q.eight
  same : (marksOf (plainFlag cs!"i_understand_this_is_not_useful_without_training" cs!"i-understand-this-is-not-useful-without-training") es).getLast?.getD false = q.same
  tokenizer : (marksOf (yesNo cs!"copy_tokenizer" cs!"copy-tokenizer") es).getLast?.getD true = q.tokenizer
  card : (marksOf (yesNo cs!"write_model_card" cs!"write-model-card") es).getLast?.getD true = q.card

/-- How the base model is loaded where its hidden states are needed: four bits come before eight. -/
def MoeAsked.loading (q : MoeAsked) : Quant :=
  match q.four, q.eight with
  | true, _ => .four
  | false, true => .eight
  | false, false => .no

/-- The modes that look at hidden states. -/
def LooksInside (mode : Str) : Prop := mode = cs!"hidden" ∨ mode = cs!"hidden_avg" ∨ mode = cs!"hidden_last"

instance (mode : Str) : Decidable (LooksInside mode) := by unfold LooksInside; infer_instance

/-- The surroundings of a run with the base model loaded as asked for. -/
def MoeWorld.at_ (W : MoeWorld K V T) (q : Quant) : Env Ref K V T :=
  { W.env with gates := { probe := fun mode p => if LooksInside mode then W.hidden q mode p else W.env.gates.probe mode p,
                          sub := W.env.gates.sub, unit := W.env.gates.unit, random := W.env.gates.random } }

/-- The settings of a run. -/
def MoeAsked.flags (q : MoeAsked) (dtype : Option Str) : Flags := { copyTokenizer := q.tokenizer, writeModelCard := q.card, allowAllSame := q.same, dtype }

/-- No model is named together with an adapter. -/
def NoAdapters (c : Moe.Config Ref K) : Prop := c.base.lora = none ∧ ∀ e ∈ c.experts, e.source.lora = none

/-! ## The document -/

theorem expert_iff {L : Lib K} (d : Doc K) (e : Moe.Expert Ref K) : readExpert L d = .ok e ↔ ExpertSays L d e := by
  constructor
  · intro h
    cases d with
    | dict d =>
      obtain ⟨m, hm, h⟩ := bind_ok.1 h
      obtain ⟨p, hp, h⟩ := bind_ok.1 h
      obtain ⟨n, hn, h⟩ := bind_ok.1 h
      obtain ⟨s, hs, h⟩ := bind_ok.1 h
      obtain ⟨r, hr, h⟩ := bind_ok.1 h
      cases h
      exact .mk ((req_iff ref_iff).1 hm) ((opt_iff (list_iff text_iff)).1 hp) ((opt_iff (list_iff text_iff)).1 hn) ((opt_iff number_iff).1 hs) ((opt_iff number_iff).1 hr)
    | null => cases h
    | bool b => cases h
    | int i => cases h
    | float x => cases h
    | list l => cases h
    | str s => cases h
  · intro h
    cases h with
    | mk hm hp hn hs hr =>
      exact bind_ok.2 ⟨_, (req_iff ref_iff).2 hm, bind_ok.2 ⟨_, (opt_iff (list_iff text_iff)).2 hp, bind_ok.2 ⟨_, (opt_iff (list_iff text_iff)).2 hn,
        bind_ok.2 ⟨_, (opt_iff number_iff).2 hs, bind_ok.2 ⟨_, (opt_iff number_iff).2 hr, rfl⟩⟩⟩⟩⟩

theorem deflt_iff {A : Type} {a : A} {f : Doc K → R A} {P : Doc K → A → Prop} (h : ∀ d a, f d = .ok a ↔ P d a) {o : Option (Doc K)} {r : A} :
    deflt a f o = .ok r ↔ Default a P o r :=
  ⟨deflt_says (fun d a => (h d a).1), deflt_read (fun d a => (h d a).2)⟩

/-- **C141** A document is read as a mixture exactly if it says one, with the default mode "hidden" and two experts per token. -/
theorem C141_document (L : Lib K) (d : Doc K) (c : Moe.Config Ref K) (dtype : Option Str) :
    readMoe L d = .ok (c, dtype) ↔ ∃ x, d = .dict x ∧ MoeSays L x c dtype := by
  constructor
  · intro h
    cases d with
    | dict d =>
      obtain ⟨b, hb, h⟩ := bind_ok.1 h
      obtain ⟨es, hes, h⟩ := bind_ok.1 h
      obtain ⟨g, hg, h⟩ := bind_ok.1 h
      obtain ⟨dt, hdt, h⟩ := bind_ok.1 h
      obtain ⟨k, hk, h⟩ := bind_ok.1 h
      obtain ⟨sh, hsh, h⟩ := bind_ok.1 h
      obtain ⟨a, ha, h⟩ := bind_ok.1 h
      cases h
      exact ⟨d, rfl, (req_iff ref_iff).1 hb, (req_iff (list_iff expert_iff)).1 hes, (deflt_iff text_iff).1 hg, (opt_iff text_iff).1 hdt, (deflt_iff integer_iff).1 hk,
        (opt_iff (list_iff expert_iff)).1 hsh, (opt_iff text_iff).1 ha⟩
    | null => cases h
    | bool b => cases h
    | int i => cases h
    | float x => cases h
    | list l => cases h
    | str s => cases h
  · rintro ⟨x, rfl, hb, hes, hg, hdt, hk, hsh, ha⟩
    exact bind_ok.2 ⟨_, (req_iff ref_iff).2 hb, bind_ok.2 ⟨_, (req_iff (list_iff expert_iff)).2 hes, bind_ok.2 ⟨_, (deflt_iff text_iff).2 hg,
      bind_ok.2 ⟨_, (opt_iff text_iff).2 hdt, bind_ok.2 ⟨_, (deflt_iff integer_iff).2 hk, bind_ok.2 ⟨_, (opt_iff (list_iff expert_iff)).2 hsh,
        bind_ok.2 ⟨_, (opt_iff text_iff).2 ha, rfl⟩⟩⟩⟩⟩⟩⟩

/-! ## The command -/

theorem moe_mem : CommandLine.moe ∈ CommandLine.commands := by simp [CommandLine.commands]

theorem settingOf_called {es : List Event} {args : List Str} {k : CommandLine.Call} (hk : Called CommandLine.moe es args k) {name form : Str}
    (hr : (⟨name, .bool, some (.bool true), [cs!"--" ++ form], [cs!"--no-" ++ form]⟩ : Setting) ∈ settings) (hn : name ≠ cs!"verbosity") :
    settingOf k name = (marksOf (yesNo name form) es).getLast?.getD true := by
  have h := hk.merge
  rw [if_pos (show CommandLine.moe.merge = true from rfl)] at h
  obtain ⟨v, hv, hi⟩ := settings_lookup h (by decide +kernel) hr
  unfold settingOf
  rw [show k.merge.lookup name = some v from hv]
  have hm : meaning (Setting.opt ⟨name, .bool, some (.bool true), [cs!"--" ++ form], [cs!"--no-" ++ form]⟩) es = ((marksOf (yesNo name form) es).getLast?).map .flag := by
    unfold meaning Setting.opt yesNo
    simp [hn]
  unfold Setting.Is at hi
  rw [hm] at hi
  cases hl : (marksOf (yesNo name form) es).getLast? with
  | none =>
    rw [hl] at hi
    simp only [Option.map_none] at hi
    rw [show v = some (.bool true) by simpa using hi]
    rfl
  | some b =>
    rw [hl] at hi
    simp only [Option.map_some] at hi
    rw [show v = some (.bool b) by simpa using hi]
    rfl

theorem moe_options {es : List Event} {args : List Str} {k : CommandLine.Call} (hk : Called CommandLine.moe es args k) :
    flagOf k cs!"load_in_4bit" false = (marksOf (plainFlag cs!"load_in_4bit" cs!"load-in-4bit") es).getLast?.getD false ∧
    flagOf k cs!"load_in_8bit" false = (marksOf (plainFlag cs!"load_in_8bit" cs!"load-in-8bit") es).getLast?.getD false ∧
    flagOf k cs!"i_understand_this_is_not_useful_without_training" false =
      (marksOf (plainFlag cs!"i_understand_this_is_not_useful_without_training" cs!"i-understand-this-is-not-useful-without-training") es).getLast?.getD false ∧
    settingOf k cs!"copy_tokenizer" = (marksOf (yesNo cs!"copy_tokenizer" cs!"copy-tokenizer") es).getLast?.getD true ∧
    settingOf k cs!"write_model_card" = (marksOf (yesNo cs!"write_model_card" cs!"write-model-card") es).getLast?.getD true :=
  ⟨flagOf_called moe_mem hk (o := plainFlag cs!"load_in_4bit" cs!"load-in-4bit") (by decide +kernel) rfl _,
   flagOf_called moe_mem hk (o := plainFlag cs!"load_in_8bit" cs!"load-in-8bit") (by decide +kernel) rfl _,
   flagOf_called moe_mem hk (o := plainFlag cs!"i_understand_this_is_not_useful_without_training" cs!"i-understand-this-is-not-useful-without-training") (by decide +kernel) rfl _,
   settingOf_called hk (by simp [settings]) (by decide), settingOf_called hk (by simp [settings]) (by decide)⟩

theorem quantOf_eq (q : MoeAsked) : quantOf q.four q.eight = q.loading := by
  unfold quantOf MoeAsked.loading
  cases q.four <;> cases q.eight <;> rfl

theorem gatesFor_eq (W : MoeWorld K V T) (q : Quant) : { W.env with gates := gatesFor W q } = W.at_ q := by
  have key : gatesFor W q = (W.at_ q).gates := by
    unfold MoeWorld.at_ gatesFor
    simp only [Moe.Gates.mk.injEq, and_true]
    funext mode p
    have : mode ∈ hiddenModes ↔ LooksInside mode := by
      unfold hiddenModes LooksInside
      simp
    by_cases h : LooksInside mode
    · rw [if_pos h, if_pos (this.2 h)]
    · rw [if_neg h, if_neg (fun g => h (this.1 g))]
  rw [key]
  rfl

theorem noAdapters_iff (c : Moe.Config Ref K) : (c.base :: c.experts.map (·.source)).any (fun r => r.lora.isSome) = false ↔ NoAdapters c := by
  unfold NoAdapters
  simp

/-- **C141** What a command line leads to: it succeeds exactly if it is right, the file it names is there and is YAML that says a mixture, no model is named with an adapter, and the mixture can be
made with the base model loaded as asked for; the directory is then as that leaves it. -/
theorem C141_main (W : MoeWorld K V T) {line : List Str} (l : Line CommandLine.moe.opts line) (dir' : Dir V) :
    moeMain W line = .ok dir' ↔ ∃ k q F O text d c dtype, Enough CommandLine.moe l.events l.args ∧ Called CommandLine.moe l.events l.args k ∧ AsksMoe l.events q ∧
      l.args = [F, O] ∧ W.file F = some text ∧ W.yaml text = some (.dict d) ∧ MoeSays W.lib d c dtype ∧ NoAdapters c ∧
      Moe.main (W.at_ q.loading) text c (q.flags dtype) (W.dir O) = (dir', none) := by
  have htwo : ∀ a : List Str, a.length = 2 → ∃ F O, a = [F, O] := by
    intro a ha
    match a, ha with
    | [F, O], _ => exact ⟨F, O, rfl⟩
  have hargument : ∀ {k : CommandLine.Call} {F O : Str}, k.args = CommandLine.moe.args.zip [F, O] → argument k cs!"config_path" = F ∧ argument k cs!"out_path" = O := by
    intro k F O h
    unfold argument
    rw [h]
    exact ⟨rfl, rfl⟩
  constructor
  · intro h
    unfold moeMain at h
    cases hk : CommandLine.call CommandLine.moe line with
    | error e => rw [hk] at h; cases h
    | ok k =>
      rw [hk] at h
      simp only at h
      obtain ⟨h1, h2⟩ := (CommandLine.C128_call moe_mem l k).1 hk
      obtain ⟨F, O, hFO⟩ := htwo l.args h1.args
      have hargs := h2.args
      rw [hFO] at hargs
      obtain ⟨ha, hb⟩ := hargument hargs
      obtain ⟨o1, o2, o3, o4, o5⟩ := moe_options h2
      rw [ha, hb, o1, o2, o3, o4, o5] at h
      have hq : AsksMoe l.events { four := _, eight := _, same := _, tokenizer := _, card := _ } := ⟨rfl, rfl, rfl, rfl, rfl⟩
      cases hf : W.file F with
      | none => rw [hf] at h; cases h
      | some text =>
        rw [hf] at h
        simp only at h
        cases hy : W.yaml text with
        | none => rw [hy] at h; cases h
        | some d =>
          rw [hy] at h
          simp only at h
          cases hr : readMoe W.lib d with
          | error e => rw [hr] at h; cases h
          | ok cd =>
            obtain ⟨c, dtype⟩ := cd
            rw [hr] at h
            simp only at h
            rw [gatesFor_eq] at h
            split at h
            · cases h
            · rename_i dir1 hm
              split at h
              · cases h
              · rename_i hno
                cases h
                obtain ⟨x, rfl, hx⟩ := (C141_document _ _ _ _).1 hr
                refine ⟨k, _, F, O, text, x, c, dtype, h1, h2, hq, hFO, hf, hy, hx, (noAdapters_iff c).1 (by simpa using hno), ?_⟩
                rw [← quantOf_eq]
                exact hm
  · rintro ⟨k, q, F, O, text, d, c, dtype, h1, h2, hq, hFO, hf, hy, hx, hno, hm⟩
    have hk := (CommandLine.C128_call moe_mem l k).2 ⟨h1, h2⟩
    have hargs := h2.args
    rw [hFO] at hargs
    obtain ⟨ha, hb⟩ := hargument hargs
    obtain ⟨o1, o2, o3, o4, o5⟩ := moe_options h2
    unfold moeMain
    rw [hk]
    simp only
    rw [ha, hf]
    simp only
    rw [hy]
    simp only
    rw [(C141_document _ _ _ _).2 ⟨d, rfl, hx⟩]
    simp only
    rw [hb, o1, o2, o3, o4, o5, hq.four, hq.eight, hq.same, hq.tokenizer, hq.card, gatesFor_eq, quantOf_eq]
    unfold MoeAsked.flags at hm
    rw [hm]
    simp only
    rw [if_neg (by rw [(noAdapters_iff c).2 hno]; simp)]

/-- **C141** fails for models with adapters: however the mixture is described and whatever is on the line (a directory to merge adapters in, for example), no run succeeds if the base model or an
expert's model is named with an adapter. -/
theorem C141_adapter (W : MoeWorld K V T) {line : List Str} (l : Line CommandLine.moe.opts line) {F O text : Str} {d : List (Str × Doc K)} {c : Moe.Config Ref K} {dtype : Option Str}
    (hargs : l.args = [F, O]) (hfile : W.file F = some text) (hyaml : W.yaml text = some (.dict d)) (hd : MoeSays W.lib d c dtype)
    (hlora : c.base.lora ≠ none ∨ ∃ e ∈ c.experts, e.source.lora ≠ none) (dir' : Dir V) : moeMain W line ≠ .ok dir' := by
  intro h
  obtain ⟨k, q, F', O', text', d', c', dtype', -, -, -, g1, g2, g3, g4, g5, -⟩ := (C141_main W l dir').1 h
  rw [hargs] at g1
  cases g1
  rw [hfile] at g2
  cases g2
  rw [hyaml] at g3
  cases g3
  have e1 := (C141_document W.lib _ _ _).2 ⟨d, rfl, hd⟩
  rw [(C141_document W.lib _ _ _).2 ⟨d, rfl, g4⟩] at e1
  cases e1
  rcases hlora with h | ⟨e, he, h⟩
  · exact h g5.1
  · exact h (g5.2 e he)

/-! ## The files -/

theorem sound_at {W : MoeWorld K V T} {pack2 pack1 : OutArch → Nat → List (List V) → V} (hs : Sound W.env pack2 pack1) (q : Quant) : Sound (W.at_ q) pack2 pack1 :=
  ⟨hs.mixtral2, hs.mixtral1, hs.qwen32, hs.qwen31, hs.single⟩

/-- A row of a router, for the base model loaded as asked for: random, or made of the vectors for the prompts. -/
def RowAt (W : MoeWorld K V T) (q : Quant) (mode : Str) (layer i : Nat) (e : Moe.Expert Ref K) (w : T) : Prop := RowOf (W.at_ q).gates mode layer i e w

/-- There is a vector for each layer of the base model. -/
def Deep (W : MoeWorld K V T) (c : Moe.Config Ref K) : Prop :=
  (∀ mode p, (W.env.gates.probe mode p).length = W.env.layers c.base) ∧ ∀ q mode p, (W.hidden q mode p).length = W.env.layers c.base

theorem deep_probe {W : MoeWorld K V T} {c : Moe.Config Ref K} (h : Deep W c) (q : Quant) (p : List Str) : ((W.at_ q).gates.probe c.gateMode p).length = (W.at_ q).layers c.base := by
  unfold MoeWorld.at_
  simp only
  split
  · exact h.2 q _ p
  · exact h.1 _ p

/-- **C141** From the command line and the document to the files: if the command succeeds, the document it names said a mixture whose number of experts per token is possible; the output directory is there,
with the tokenizer of the base model (padding on the left) and the text of the document unless they are not wanted, a configuration that names the layout and counts the experts of the document, and tensors
of that layout with a router in each layer that has one row per expert, in the order of the document, computed from the prompts given for it. -/
theorem C141_files [Inhabited V] {W : MoeWorld K V T} {pack2 pack1 : OutArch → Nat → List (List V) → V} (hs : Sound W.env pack2 pack1) {line : List Str}
    (l : Line CommandLine.moe.opts line) {dir' : Dir V} (h : moeMain W line = .ok dir') :
    ∃ q F O text x c dtype, AsksMoe l.events q ∧ l.args = [F, O] ∧ W.file F = some text ∧ W.yaml text = some (.dict x) ∧ MoeSays W.lib x c dtype ∧
      (Deep W c → (1 ≤ c.expertsPerToken ∧ c.expertsPerToken ≤ c.experts.length) ∧ dir'.there = true ∧
        dir'.tokenizer = (if q.tokenizer then some (padded (W.env.tokenizer c.base)) else (W.dir O).tokenizer) ∧
        dir'.recipe = (if q.card then some text else (W.dir O).recipe) ∧
        ∃ a d cfg rows ts, selectArch c W.env.typeOf = some a ∧ OutType dtype (W.env.cfg c.base) d ∧
          dir'.config = some cfg ∧ cfg cs!"architectures" = some (.texts [className a]) ∧ cfg (countKey a) = some (.int c.experts.length) ∧
          cfg cs!"num_experts_per_tok" = some (.int c.expertsPerToken) ∧ (∀ d', d = some d' → cfg cs!"torch_dtype" = some (.dtype d')) ∧
          (∀ k v, k ∉ changedKeys a → k ≠ cs!"torch_dtype" → Keeps W.env.lib k → W.env.cfg c.base k = some v → cfg k = some v) ∧
          rows.length = W.env.layers c.base ∧
          (∀ layer r s, rows[layer]? = some (r, s) → r.length = c.experts.length ∧
            ∀ i e, c.experts[i]? = some e → ∃ w, r[i]? = some w ∧ RowAt W q.loading c.gateMode layer i e w) ∧
          dir'.tensors = some ts ∧ Saves W.env c (pack2 a) (pack1 a) d rows ts a) := by
  obtain ⟨k, q, F, O, text, x, c, dtype, -, -, hq, hFO, hf, hy, hx, hno, hm⟩ := (C141_main W l dir').1 h
  refine ⟨q, F, O, text, x, c, dtype, hq, hFO, hf, hy, hx, fun hdeep => ?_⟩
  obtain ⟨h1, h2, h3, h4, a, d, cfg, rows, ts, r⟩ := Moe.C124_finished (sound_at hs q.loading) (deep_probe hdeep q.loading) hm
  obtain ⟨r1, r2, r3, r4, r5, r6, r7, r8, r9, r10, r11, r12⟩ := r
  refine ⟨h1, h2, h3, h4, a, d, cfg, rows, ts, r1, r2, r3, r4, r5, r6, r7, r8, r9, r10, r11, ?_⟩
  cases a <;> exact r12

/-- **C141** And it succeeds: the line is right, the document says an acceptable mixture without adapters, in a known mode, with prompts for all shared experts or for none, for which a layout fits; and the
models store what that layout needs. -/
theorem C141_succeeds [Inhabited V] {W : MoeWorld K V T} {pack2 pack1 : OutArch → Nat → List (List V) → V} (hs : Sound W.env pack2 pack1) {line : List Str}
    (l : Line CommandLine.moe.opts line) {k : CommandLine.Call} (hk : Enough CommandLine.moe l.events l.args) (hk' : Called CommandLine.moe l.events l.args k) {q : MoeAsked}
    (hq : AsksMoe l.events q) {F O text : Str} {x : List (Str × Doc K)} {c : Moe.Config Ref K} {dtype : Option Str} {a : OutArch} {d : Option LoadTask.DType} (hargs : l.args = [F, O])
    (hfile : W.file F = some text) (hyaml : W.yaml text = some (.dict x)) (hx : MoeSays W.lib x c dtype) (hno : NoAdapters c) (hdeep : Deep W c)
    (hadd : ∀ w ∈ W.env.weights a c.base, Moe.Addable w) (hbad : Moe.isBad c q.same = false) (hmode : Moe.IsRandom c.gateMode ∨ Moe.IsProbe c.gateMode)
    (hshared : ∀ s ∈ c.sharedList, ∀ s' ∈ c.sharedList, (s.positive.getD [] = [] ↔ s'.positive.getD [] = [])) (ha : selectArch c W.env.typeOf = some a)
    (hd : Moe.selectDtype dtype (W.env.cfg c.base) = .ok d) (hb : Moe.HasEntries W.env.lib (W.env.cfg c.base) a) (hst : Moe.Stocked W.env c a)
    (hdir : a = .deepseek → (W.dir O).there = true) : ∃ dir', moeMain W line = .ok dir' := by
  have hst' : Moe.Stocked (W.at_ q.loading) c a := by cases a <;> exact hst
  obtain ⟨dir', h⟩ := Moe.C124_succeeds (sound_at hs q.loading) text (flags := q.flags dtype) (dir := W.dir O) (d := d) (deep_probe hdeep q.loading) hadd hbad hmode hshared ha hd hb hst' hdir
  exact ⟨dir', (C141_main W l dir').2 ⟨k, q, F, O, text, x, c, dtype, hk, hk', hq, hargs, hfile, hyaml, hx, hno, h⟩⟩

/-- **C141** What was written in the Mixtral or the Qwen3 layout can be merged further: mergekit finds the definition of the mixture from the configuration written, and the tensors are complete for it. -/
theorem C141_mergeable [Inhabited V] {W : MoeWorld K V T} {line : List Str} (l : Line CommandLine.moe.opts line) {F O text : Str} {x : List (Str × Doc K)} {c : Moe.Config Ref K}
    {dtype : Option Str} (hargs : l.args = [F, O]) (hfile : W.file F = some text) (hyaml : W.yaml text = some (.dict x)) (hx : MoeSays W.lib x c dtype) (hdeep : Deep W c)
    (hmistral : Verif.Arch.allWeights (Verif.Arch.Data.mistral.zip [W.env.layers c.base]) = .ok (W.env.weights .mixtral c.base))
    (hqwen3 : Verif.Arch.allWeights (Verif.Arch.Data.qwen3.zip [W.env.layers c.base]) = .ok (W.env.weights .qwen3 c.base))
    (hlayers : W.env.cfg c.base cs!"num_hidden_layers" = some (.int (W.env.layers c.base))) (hkeep : Keeps W.env.lib cs!"num_hidden_layers")
    (ha : selectArch c W.env.typeOf = some .mixtral ∨ selectArch c W.env.typeOf = some .qwen3) {dir' : Dir V} (h : moeMain W line = .ok dir')
    (afmoe glm4 : Verif.Infer.ModelInfo → List Arch.Module) (known : List (List Str × Str × List Arch.Module)) (hl : known.Perm Verif.Arch.Data.known) (modelType : Str) :
    ∃ cfg ts n name ms ws, dir'.config = some cfg ∧ dir'.tensors = some ts ∧
      cfg cs!"num_hidden_layers" = some (.int n) ∧ cfg cs!"architectures" = some (.texts [name]) ∧
      Verif.Infer.archFor { python := Verif.Arch.Data.pythonKnown afmoe glm4, json := known } { architectures := [name], modelType := modelType } = .ok (some ms) ∧
      Verif.Arch.allWeights (ms.zip [(n : Int).toNat]) = .ok ws ∧ Moe.Complete ts ws (fun s => ∃ t, W.env.disk c.base s = some t) := by
  obtain ⟨k, q, F', O', text', d', c', dtype', -, -, -, g1, g2, g3, g4, g5, g6⟩ := (C141_main W l dir').1 h
  rw [hargs] at g1
  cases g1
  rw [hfile] at g2
  cases g2
  rw [hyaml] at g3
  cases g3
  have e1 := (C141_document W.lib _ _ _).2 ⟨x, rfl, hx⟩
  rw [(C141_document W.lib _ _ _).2 ⟨x, rfl, g4⟩] at e1
  cases e1
  exact Moe.C124_mergeable (env := W.at_ q.loading) (deep_probe hdeep q.loading) hmistral hqwen3 hlayers hkeep g6 ha afmoe glm4 known hl modelType

/-! ## Loading in fewer bits -/

theorem routersOf_congr {M : Type} {g g' : Moe.Gates T} {c : Moe.Config M K} (hp : g.probe c.gateMode = g'.probe c.gateMode) (h1 : g.sub = g'.sub) (h2 : g.unit = g'.unit) (h3 : g.random = g'.random)
    (n : Nat) : Moe.routersOf g c n = Moe.routersOf g' c n := by
  have hg : ∀ e : Moe.Expert M K, Moe.gateOf g c.gateMode e = Moe.gateOf g' c.gateMode e := by
    intro e
    unfold Moe.gateOf
    rw [hp, h1, h2]
  unfold Moe.routersOf Moe.gateParams
  simp only [hg, h3]

/-- **C141** The options to load the base model in fewer bits do not matter in modes that do not look at hidden states: two lines that differ only in these give the same files. -/
theorem C141_bits (W : MoeWorld K V T) {line line' : List Str} (l : Line CommandLine.moe.opts line) (l' : Line CommandLine.moe.opts line') {q q' : MoeAsked} {k' : CommandLine.Call}
    (hq : AsksMoe l.events q) (hq' : AsksMoe l'.events q') (he' : Enough CommandLine.moe l'.events l'.args) (hk' : Called CommandLine.moe l'.events l'.args k') (hargs : l'.args = l.args)
    (hsame : q'.same = q.same) (htok : q'.tokenizer = q.tokenizer) (hcard : q'.card = q.card)
    (hmode : ∀ F O text x c dtype, l.args = [F, O] → W.file F = some text → W.yaml text = some (.dict x) → MoeSays W.lib x c dtype → ¬ LooksInside c.gateMode)
    {dir' : Dir V} (h : moeMain W line = .ok dir') : moeMain W line' = .ok dir' := by
  obtain ⟨k, q0, F, O, text, x, c, dtype, h1, h2, h3, g1, g2, g3, g4, g5, g6⟩ := (C141_main W l dir').1 h
  have hqq : q0 = q := by
    obtain ⟨a1, a2, a3, a4, a5⟩ := h3
    obtain ⟨b1, b2, b3, b4, b5⟩ := hq
    cases q0
    cases q
    simp only at *
    rw [MoeAsked.mk.injEq]
    exact ⟨a1.symm.trans b1, a2.symm.trans b2, a3.symm.trans b3, a4.symm.trans b4, a5.symm.trans b5⟩
  subst hqq
  refine (C141_main W l' dir').2 ⟨k', q', F, O, text, x, c, dtype, he', hk', hq', hargs.trans g1, g2, g3, g4, g5, ?_⟩
  have hno := hmode F O text x c dtype g1 g2 g3 g4
  have hflags : q'.flags dtype = q0.flags dtype := by
    unfold MoeAsked.flags
    rw [hsame, htok, hcard]
  rw [hflags, ← g6]
  have hr : Moe.routersOf (W.at_ q'.loading).gates c (W.env.layers c.base) = Moe.routersOf (W.at_ q0.loading).gates c (W.env.layers c.base) := by
    have hp : (W.at_ q'.loading).gates.probe c.gateMode = (W.at_ q0.loading).gates.probe c.gateMode := by
      unfold MoeWorld.at_
      simp only [if_neg hno]
    exact routersOf_congr (g := (W.at_ q'.loading).gates) (g' := (W.at_ q0.loading).gates) hp rfl rfl rfl _
  unfold Moe.main Moe.build
  have e1 : (W.at_ q'.loading).typeOf = (W.at_ q0.loading).typeOf := rfl
  have e2 : (W.at_ q'.loading).layers = W.env.layers := rfl
  have e3 : (W.at_ q0.loading).layers = W.env.layers := rfl
  rw [e1, e2, e3, hr]
  rfl

/-! ## The hypotheses can be met -/

/-- The models of `Verif.Moe.sampleEnv`, by their paths. -/
def numberOf (r : Ref) : Nat := if r.model.path = cs!"base" then 0 else if r.model.path = cs!"one" then 1 else 2

/-- `{base_model: base, gate_mode: .., experts: [{source_model: one, positive_prompts: [a]}, {source_model: .., positive_prompts: [b], negative_prompts: [c], noise_scale: 3}]}`. -/
def moeDoc (mode second : Str) : List (Str × Doc Nat) :=
  [(cs!"base_model", .str cs!"base"), (cs!"gate_mode", .str mode),
   (cs!"experts", .list [.dict [(cs!"source_model", .str cs!"one"), (cs!"positive_prompts", .list [.str cs!"a"])],
     .dict [(cs!"source_model", .str second), (cs!"positive_prompts", .list [.str cs!"b"]), (cs!"negative_prompts", .list [.str cs!"c"]), (cs!"noise_scale", .int 3)]])]

/-- Its configuration. -/
def moeConfig (mode : Str) (second : Ref) : Moe.Config Ref Nat where
  base := pathOnly cs!"base"
  experts := [{ source := pathOnly cs!"one", positive := some [cs!"a"] }, { source := second, positive := some [cs!"b"], negative := some [cs!"c"], noiseScale := some 3 }]
  gateMode := mode
  expertsPerToken := 2

/-- A world with that document as the file `c.yml`. -/
def moeWorld (mode second : Str) : MoeWorld Nat Str Str where
  file := fun f => if f = cs!"c.yml" then some cs!"text" else none
  yaml := fun _ => some (.dict (moeDoc mode second))
  lib := ⟨Int.toNat, fun n => some n, fun _ => none, fun _ => none, fun _ => none⟩
  env :=
    { lib := Moe.plainLib
      cfg := fun r => Moe.oneLayer cs!"llama" (if numberOf r = 0 then 4 else 8)
      typeOf := fun _ => cs!"llama"
      layers := fun _ => 1
      disk := fun r => Moe.shortDisk (numberOf r)
      weights := fun a _ => match a with
        | .mixtral => Moe.shippedOne Verif.Arch.Data.mistral
        | .deepseek => Moe.shippedOne Verif.Arch.Data.llama
        | .qwen => Moe.shippedOne Verif.Arch.Data.qwen2
        | .qwen3 => Moe.shippedOne Verif.Arch.Data.qwen3
      tokenizer := fun _ => { paddingSide := cs!"right", bos := some 1, eos := some 2, pad := some 0, rest := 7 }
      gates := Moe.oneGates
      stack := List.flatten
      ops := fun _ => Moe.textOps
      mixtralTransforms := Moe.mixtralPackers
      qwen3Transforms := Moe.qwen3Packers }
  hidden := fun q _ p => [match q with
    | .no => p.flatten
    | .four => cs!"4:" ++ p.flatten
    | .eight => cs!"8:" ++ p.flatten]
  dir := fun _ => {}

theorem moeWorld_sound (mode second : Str) : Sound (moeWorld mode second).env (fun _ _ => Moe.packed) (fun _ _ => Moe.packed) where
  mixtral2 := Moe.packer_two (by decide) _ _
  mixtral1 := Moe.packer_one (by decide) (by decide) _ _
  qwen32 := Moe.packer_two (by decide) _ _
  qwen31 := Moe.packer_one (by decide) (by decide) _ _
  single a _ := by
    cases a
    · exact (Moe.shippedOne_ok Verif.Arch.Data.mistral (by simp)).2
    · exact (Moe.shippedOne_ok Verif.Arch.Data.llama (by simp)).2
    · exact (Moe.shippedOne_ok Verif.Arch.Data.qwen2 (by simp)).2
    · exact (Moe.shippedOne_ok Verif.Arch.Data.qwen3 (by simp)).2

theorem moeWorld_deep (mode second : Str) (c : Moe.Config Ref Nat) : Deep (moeWorld mode second) c := ⟨fun _ _ => rfl, fun _ _ _ => rfl⟩

theorem moeDoc_says (mode : Str) : MoeSays (moeWorld mode cs!"two").lib (moeDoc mode cs!"two") (moeConfig mode (pathOnly cs!"two")) none := by
  obtain ⟨x, hx, h⟩ := (C141_document (moeWorld mode cs!"two").lib (.dict (moeDoc mode cs!"two")) (moeConfig mode (pathOnly cs!"two")) none).1 (by rfl)
  cases hx
  exact h

theorem moeDoc_says_adapter (mode : Str) :
    MoeSays (moeWorld mode cs!"two+x").lib (moeDoc mode cs!"two+x") (moeConfig mode ⟨⟨cs!"two", none⟩, some ⟨cs!"x", none⟩, none⟩) none := by
  obtain ⟨x, hx, h⟩ := (C141_document (moeWorld mode cs!"two+x").lib (.dict (moeDoc mode cs!"two+x")) (moeConfig mode ⟨⟨cs!"two", none⟩, some ⟨cs!"x", none⟩, none⟩) none).1 (by rfl)
  cases hx
  exact h

/-- `mergekit-moe c.yml out --load-in-4bit --no-copy-tokenizer`. -/
def moeLine : Line CommandLine.moe.opts [cs!"c.yml", cs!"out", cs!"--load-in-4bit", cs!"--no-copy-tokenizer"] where
  uses := [.plain cs!"c.yml", .plain cs!"out", .flag (plainFlag cs!"load_in_4bit" cs!"load-in-4bit") cs!"--load-in-4bit" true,
    .flag (yesNo cs!"copy_tokenizer" cs!"copy-tokenizer") cs!"--no-copy-tokenizer" false]
  after := none
  fits := by
    intro u hu
    simp only [List.mem_cons, List.not_mem_nil, or_false] at hu
    rcases hu with rfl | rfl | rfl | rfl
    · exact show ¬ _ by decide
    · exact show ¬ _ by decide
    · exact ⟨by decide +kernel, by decide +kernel, by decide +kernel⟩
    · exact ⟨by decide +kernel, by decide +kernel, by decide +kernel⟩
  written := by decide +kernel

/-- What it asks for. -/
def moeQuery : MoeAsked := ⟨true, false, false, false, true⟩

theorem moeLine_asks : AsksMoe moeLine.events moeQuery := ⟨by decide +kernel, by decide +kernel, by decide +kernel, by decide +kernel, by decide +kernel⟩

/-- The mixture is made, in every mode that looks at prompts. -/
theorem moeWorld_succeeds (mode : Str) (hm : Moe.IsProbe mode) : ∃ dir', moeMain (moeWorld mode cs!"two") [cs!"c.yml", cs!"out", cs!"--load-in-4bit", cs!"--no-copy-tokenizer"] = .ok dir' := by
  obtain ⟨k, hk⟩ : ∃ k, CommandLine.call CommandLine.moe [cs!"c.yml", cs!"out", cs!"--load-in-4bit", cs!"--no-copy-tokenizer"] = .ok k := ⟨_, rfl⟩
  obtain ⟨h1, h2⟩ := (CommandLine.C128_call moe_mem moeLine k).1 hk
  rcases hm with rfl | rfl | rfl | rfl
  all_goals
  refine C141_succeeds (a := .mixtral) (d := some .bfloat16) (text := cs!"text") (F := cs!"c.yml") (O := cs!"out") (moeWorld_sound _ cs!"two") moeLine h1 h2 moeLine_asks (by decide +kernel) (by unfold moeWorld; simp only [if_true]) rfl
    (moeDoc_says _) ⟨rfl, by unfold moeConfig; simp [pathOnly]⟩ (moeWorld_deep _ _ _) (Moe.shippedOne_addable Verif.Arch.Data.mistral (by simp)) (by decide +kernel) (Or.inr (by unfold Moe.IsProbe; decide))
    (by intro s hs; cases hs) (by rfl) (by decide +kernel) (Or.inr ⟨.int 2048, by rfl⟩) ?_ (by intro h; cases h)
  all_goals exact ⟨fun w _ _ _ => Moe.shortDisk_first _ _ _, fun layer _ e _ p _ => Moe.shortDisk_stored _ _⟩

/-- What is in the directory after a run, if it succeeds. -/
def whatIsThere (r : Except MoeErr (Dir Str)) : Option (Option Moe.Tok × Option Str × Option (List (Str × Str))) :=
  match r with
  | .ok d => some (d.tokenizer, d.recipe, d.tensors)
  | .error _ => none

/-- The routers are made from the hidden states of the base model in four bits, unless the mode does not look at these. -/
example : (∃ ts, whatIsThere (moeMain (moeWorld cs!"hidden" cs!"two") [cs!"c.yml", cs!"out", cs!"--load-in-4bit", cs!"--no-copy-tokenizer"]) = some (none, some cs!"text", some ts) ∧
      (cs!"model.layers.0.mlp.gate.weight", cs!"|4:a||4:b-4:c|") ∈ ts) ∧
    ∃ ts, whatIsThere (moeMain (moeWorld cs!"cheap_embed" cs!"two") [cs!"c.yml", cs!"out", cs!"--load-in-4bit", cs!"--no-copy-tokenizer"]) = some (none, some cs!"text", some ts) ∧
      (cs!"model.layers.0.mlp.gate.weight", cs!"|a||b-c|") ∈ ts := by
  constructor
  all_goals exact ⟨_, rfl, by decide +kernel⟩

/-- `mergekit-moe c.yml out --no-copy-tokenizer`. -/
def moeShortLine : Line CommandLine.moe.opts [cs!"c.yml", cs!"out", cs!"--no-copy-tokenizer"] where
  uses := [.plain cs!"c.yml", .plain cs!"out", .flag (yesNo cs!"copy_tokenizer" cs!"copy-tokenizer") cs!"--no-copy-tokenizer" false]
  after := none
  fits := by
    intro u hu
    simp only [List.mem_cons, List.not_mem_nil, or_false] at hu
    rcases hu with rfl | rfl | rfl
    · exact show ¬ _ by decide
    · exact show ¬ _ by decide
    · exact ⟨by decide +kernel, by decide +kernel, by decide +kernel⟩
  written := by decide +kernel

/-- The hypotheses of `C141_bits` are met: in the mode "cheap_embed" the same is made without `--load-in-4bit`. -/
example : ∃ dir', moeMain (moeWorld cs!"cheap_embed" cs!"two") [cs!"c.yml", cs!"out", cs!"--load-in-4bit", cs!"--no-copy-tokenizer"] = .ok dir' ∧
    moeMain (moeWorld cs!"cheap_embed" cs!"two") [cs!"c.yml", cs!"out", cs!"--no-copy-tokenizer"] = .ok dir' := by
  obtain ⟨dir', h⟩ := moeWorld_succeeds cs!"cheap_embed" (by unfold Moe.IsProbe; decide)
  obtain ⟨k, hk⟩ : ∃ k, CommandLine.call CommandLine.moe [cs!"c.yml", cs!"out", cs!"--no-copy-tokenizer"] = .ok k := ⟨_, rfl⟩
  obtain ⟨h1, h2⟩ := (CommandLine.C128_call moe_mem moeShortLine k).1 hk
  refine ⟨dir', h, C141_bits _ moeLine moeShortLine moeLine_asks (q' := ⟨false, false, false, false, true⟩)
    ⟨by decide +kernel, by decide +kernel, by decide +kernel, by decide +kernel, by decide +kernel⟩ h1 h2 (by decide +kernel) rfl rfl rfl ?_ h⟩
  intro F O text x c dtype _ _ hy hx
  cases hy
  have e := (C141_document (moeWorld cs!"cheap_embed" cs!"two").lib _ _ _).2 ⟨_, rfl, hx⟩
  rw [(C141_document (moeWorld cs!"cheap_embed" cs!"two").lib _ _ _).2 ⟨_, rfl, moeDoc_says cs!"cheap_embed"⟩] at e
  cases e
  decide +kernel

/-- The hypotheses of `C141_files` and `C141_mergeable` are met. -/
example (afmoe glm4 : Verif.Infer.ModelInfo → List Arch.Module) : ∃ dir' cfg ts, moeMain (moeWorld cs!"hidden" cs!"two") [cs!"c.yml", cs!"out", cs!"--load-in-4bit", cs!"--no-copy-tokenizer"] = .ok dir' ∧
    dir'.config = some cfg ∧ dir'.tensors = some ts ∧ ∃ n name ms ws, cfg cs!"num_hidden_layers" = some (.int n) ∧ cfg cs!"architectures" = some (.texts [name]) ∧
      Verif.Infer.archFor { python := Verif.Arch.Data.pythonKnown afmoe glm4, json := Verif.Arch.Data.known } { architectures := [name], modelType := cs!"mixtral" } = .ok (some ms) ∧
      Verif.Arch.allWeights (ms.zip [(n : Int).toNat]) = .ok ws ∧
      Moe.Complete ts ws (fun s => ∃ t, (moeWorld cs!"hidden" cs!"two").env.disk (pathOnly cs!"base") s = some t) := by
  obtain ⟨dir', h⟩ := moeWorld_succeeds cs!"hidden" (by unfold Moe.IsProbe; decide)
  obtain ⟨cfg, ts, n, name, ms, ws, g1, g2, g⟩ := C141_mergeable moeLine (F := cs!"c.yml") (O := cs!"out") (text := cs!"text") (by decide +kernel) (by unfold moeWorld; simp only [if_true]) rfl
    (moeDoc_says cs!"hidden") (moeWorld_deep _ _ _) (Moe.shippedOne_ok _ (by simp)).1 (Moe.shippedOne_ok _ (by simp)).1 (by rfl) (Moe.plainLib_keeps (by decide)) (Or.inl (by rfl)) h
    afmoe glm4 _ (List.Perm.refl _) cs!"mixtral"
  exact ⟨dir', cfg, ts, h, g1, g2, n, name, ms, ws, g⟩

/-- C141 for adapters: with `two+x` instead of `two` the mixture is not made. -/
theorem C141_adapter_case (mode : Str) (hm : Moe.IsProbe mode) :
    (∃ dir', moeMain (moeWorld mode cs!"two") [cs!"c.yml", cs!"out", cs!"--load-in-4bit", cs!"--no-copy-tokenizer"] = .ok dir') ∧
    ∀ dir', moeMain (moeWorld mode cs!"two+x") [cs!"c.yml", cs!"out", cs!"--load-in-4bit", cs!"--no-copy-tokenizer"] ≠ .ok dir' :=
  ⟨moeWorld_succeeds mode hm, C141_adapter _ moeLine (F := cs!"c.yml") (O := cs!"out") (text := cs!"text") (by decide +kernel) (by unfold moeWorld; simp only [if_true]) rfl (moeDoc_says_adapter mode)
    (Or.inr ⟨_, by unfold moeConfig; exact List.mem_cons_of_mem _ (List.mem_cons_self ..), by simp⟩)⟩

end Verif.Main
