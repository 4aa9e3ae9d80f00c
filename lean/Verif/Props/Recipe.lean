import Verif.Model.Recipe
import Verif.Props.MultiTasks

/-! # C122: a recipe of several merges gives the nested merge -/

set_option linter.unusedSectionVars false

namespace Verif.MultiMerge

open Verif.ModelRef (Str Ref)
open Verif.Universe Verif.Pipeline Verif.Graph

variable {C D E : Type}

/-- There is one task for each name. -/
theorem TaskFor.det {config : Name → Option C} {deps : Name → List Name} {outOf : Name → Str} {n : Name} {t t' : MTask C}
    (h : TaskFor config deps outOf n t) (h' : TaskFor config deps outOf n t') : t = t' := by
  induction h generalizing t' with
  | mk n c inputs hc hd hi ih =>
    cases h' with
    | mk _ c' inputs' hc' hd' hi' =>
      rw [hc] at hc'
      cases hc'
      have : inputs = inputs' := by
        have hfst : inputs.map Prod.fst = inputs'.map Prod.fst := hd.trans hd'.symm
        clear hd hd' hc
        induction inputs generalizing inputs' with
        | nil =>
          cases inputs' with
          | nil => rfl
          | cons _ _ => cases hfst
        | cons e es ih2 =>
          cases inputs' with
          | nil => cases hfst
          | cons e' es' =>
            simp only [List.map_cons, List.cons.injEq] at hfst
            obtain ⟨a, b⟩ := e
            obtain ⟨a', b'⟩ := e'
            simp only at hfst
            obtain ⟨rfl, hfst⟩ := hfst
            have h1 := ih (a, b) (List.mem_cons_self ..) (hi' (a, b') (List.mem_cons_self ..))
            simp only at h1
            subst h1
            rw [ih2 (fun x hx => hi x (List.mem_cons_of_mem _ hx)) (fun x hx => ih x (List.mem_cons_of_mem _ hx)) es'
              (fun x hx => hi' x (List.mem_cons_of_mem _ hx)) hfst]
      rw [this]

section
variable (config : Name → Option C) (deps : Name → List Name) (names : List Name) (outOf : Name → Str) (merging : Merging C D E) (disk₀ : Disk D)

/-- What a merge of the recipe is: its configuration merged into an empty directory, with the merges it refers to in their places and everything
else as it was to begin with. -/
inductive Means : Name → D → Prop
  | mk (n : Name) (c : C) (disk : Disk D) (d : D) : config n = some c → (∀ p, (∀ m ∈ names, p ≠ outOf m) → disk p = disk₀ p) →
      (∀ m ∈ deps n, disk (outOf m) ≠ none) → (∀ m ∈ deps n, ∀ d', disk (outOf m) = some d' → Means m d') →
      merging c disk none = (some d, none) → Means n d

/-- Merges read only what they refer to: directories that are no results of the recipe, and results of merges they refer to. -/
def ReadsOnly : Prop := ∀ n ∈ names, ∀ c, config n = some c → ∀ disk disk' old,
  (∀ p, (∀ m ∈ names, p = outOf m → m ∈ deps n) → disk p = disk' p) → merging c disk old = merging c disk' old

/-- A merge either gives a directory or raises. -/
def GivesOrRaises : Prop := ∀ c disk old, ((merging c disk old).2 = none → ((merging c disk old).1).isSome = true)

/-- What the directory of a merge may hold to begin with: nothing; a result of the same recipe that is recognised as such and kept; or
leftovers that are not recognised and do not disturb. -/
def StartsWell (lazy : Bool) (present : D → Bool) (n : Name) : Option D → Prop
  | none => True
  | some d => (lazy = true ∧ present d = true ∧ Means config deps names outOf merging disk₀ n d) ∨
      ((lazy = true → present d = false) ∧ ∀ c disk, config n = some c → merging c disk (some d) = merging c disk none)

end

section
variable {config : Name → Option C} {deps : Name → List Name} {names : List Name} {outOf : Name → Str} {merging : Merging C D E} {disk₀ : Disk D}

theorem Means.det (hclosed : ∀ n ∈ names, ∀ d ∈ deps n, d ∈ names)
    (hreads : ReadsOnly config deps names outOf merging) {n : Name} (hn : n ∈ names) {d d' : D}
    (h : Means config deps names outOf merging disk₀ n d) (h' : Means config deps names outOf merging disk₀ n d') : d = d' := by
  induction h generalizing d' with
  | mk n c disk d hc hp hs hd hm ih =>
    cases h' with
    | mk _ c' disk' _ hc' hp' hs' hd' hm' =>
      rw [hc] at hc'
      cases hc'
      have : merging c disk none = merging c disk' none := by
        refine hreads n hn c hc disk disk' none (fun p hpm => ?_)
        by_cases hex : ∃ m ∈ names, p = outOf m
        · obtain ⟨m, hmn, rfl⟩ := hex
          have hmd := hpm m hmn rfl
          obtain ⟨e, he⟩ := Option.ne_none_iff_exists'.1 (hs m hmd)
          obtain ⟨e', he'⟩ := Option.ne_none_iff_exists'.1 (hs' m hmd)
          rw [he, he', ih m hmd e he (hclosed n hn m hmd) (hd' m hmd e' he')]
        · have hno : ∀ m ∈ names, p ≠ outOf m := fun m hmn h => hex ⟨m, hmn, h⟩
          rw [hp p hno, hp' p hno]
      rw [hm, hm'] at this
      simp only [Prod.mk.injEq, Option.some.injEq, and_true] at this
      exact this

/-- What the disk looks like after the tasks `p` have been executed. -/
structure After (config : Name → Option C) (deps : Name → List Name) (names : List Name) (outOf : Name → Str) (merging : Merging C D E)
    (disk₀ : Disk D) (p : List (MTask C)) (disk : Disk D) : Prop where
  done : ∀ n ∈ names, ∀ x ∈ p, TaskFor config deps outOf n x → ∃ d, disk (outOf n) = some d ∧ Means config deps names outOf merging disk₀ n d
  todo : ∀ n ∈ names, (∀ x ∈ p, ¬ TaskFor config deps outOf n x) → disk (outOf n) = disk₀ (outOf n)
  rest : ∀ q, (∀ m ∈ names, q ≠ outOf m) → disk q = disk₀ q

/-- What an exception at the merge `n` leaves behind. -/
structure Stopped (config : Name → Option C) (deps : Name → List Name) (names : List Name) (outOf : Name → Str) (merging merging₁ : Merging C D E)
    (disk₀ disk : Disk D) (n : Name) (e : E) : Prop where
  rest : ∀ q, (∀ m ∈ names, q ≠ outOf m) → disk q = disk₀ q
  before : ∃ p disk', After config deps names outOf merging disk₀ p disk' ∧ ∀ m ∈ names, m ≠ n → disk (outOf m) = disk' (outOf m)
  left : ∃ c disk' old, config n = some c ∧ disk (outOf n) = (merging₁ c disk' old).1 ∧ (merging₁ c disk' old).2 = some e
  cause : merging₁ = merging → ∀ d, ¬ Means config deps names outOf merging disk₀ n d

theorem After.step (hclosed : ∀ n ∈ names, ∀ d ∈ deps n, d ∈ names) (hinj : ∀ m ∈ names, ∀ n ∈ names, outOf m = outOf n → m = n)
    (hreads : ReadsOnly config deps names outOf merging) (hgives : GivesOrRaises merging) (lazy : Bool) (present : D → Bool)
    (hstart : ∀ n ∈ names, StartsWell config deps names outOf merging disk₀ lazy present n (disk₀ (outOf n))) {merging₁ : Merging C D E}
    (hsame : ∀ c disk old, (merging₁ c disk old).2 = none → merging₁ c disk old = merging c disk old)
    {p : List (MTask C)} {disk : Disk D} (h : After config deps names outOf merging disk₀ p disk) {n : Name} (hn : n ∈ names) {x : MTask C}
    (hx : TaskFor config deps outOf n x) (hnew : x ∉ p) (hdeps : ∀ d ∈ deps n, ∃ y ∈ p, TaskFor config deps outOf d y) :
    let r := executeMerge lazy present merging₁ disk x
    (r.2 = none → After config deps names outOf merging disk₀ (p ++ [x]) r.1) ∧
    (∀ e, r.2 = some e → Stopped config deps names outOf merging merging₁ disk₀ r.1 n e) := by
  intro r
  have hout : x.outPath = outOf n := by cases hx; rfl
  have hcfg : config n = some x.config := by cases hx; assumption
  have htodo : ∀ y ∈ p, ¬ TaskFor config deps outOf n y := fun y hy hty => hnew (hx.det hty ▸ hy)
  have hold := h.todo n hn htodo
  have hsw := hstart n hn
  have other : ∀ y m, TaskFor config deps outOf m y → y = x → m ∈ names → m = n := by
    rintro y m hy rfl hm
    refine hinj m hm n hn ?_
    rw [← hout]
    cases hy; rfl
  by_cases hskip : (lazy && (disk x.outPath).any present) = true
  · have hr : r = (disk, none) := by simp only [r, executeMerge]; rw [if_pos hskip]
    rw [hr]
    refine ⟨fun _ => ?_, fun e he => by cases he⟩
    rw [hout, hold] at hskip
    cases hd : disk₀ (outOf n) with
    | none => simp [hd] at hskip
    | some d =>
      rw [hd] at hskip hsw
      simp only [Option.any_some, Bool.and_eq_true] at hskip
      have hmean : Means config deps names outOf merging disk₀ n d := by
        rcases hsw with ⟨_, _, hm⟩ | ⟨hm, _⟩
        · exact hm
        · rw [hm hskip.1] at hskip; simp at hskip
      refine ⟨fun m hm y hy hty => ?_, fun m hm hno => h.todo m hm (fun y hy => hno y (List.mem_append_left _ hy)), h.rest⟩
      rcases List.mem_append.1 hy with hy | hy
      · exact h.done m hm y hy hty
      · rw [other y m hty (by simpa using hy) hm]
        exact ⟨d, hold.trans hd, hmean⟩
  · obtain ⟨hr1, hr2⟩ : r.1 = Function.update disk (outOf n) (merging₁ x.config disk (disk (outOf n))).1 ∧
        r.2 = (merging₁ x.config disk (disk (outOf n))).2 := by
      simp only [r, executeMerge]; rw [if_neg hskip, hout]; exact ⟨rfl, rfl⟩
    have hclean : merging x.config disk (disk (outOf n)) = merging x.config disk none := by
      rw [hold]
      rw [hout, hold] at hskip
      cases hd : disk₀ (outOf n) with
      | none => rfl
      | some d =>
        rw [hd] at hskip hsw
        rcases hsw with ⟨hl, hp, _⟩ | ⟨_, hm⟩
        · simp [hl, hp] at hskip
        · exact hm _ disk hcfg
    have hpl : ∀ m ∈ deps n, ∃ d, disk (outOf m) = some d ∧ Means config deps names outOf merging disk₀ m d := by
      intro m hm
      obtain ⟨y, hy, hty⟩ := hdeps m hm
      exact h.done m (hclosed n hn m hm) y hy hty
    have hrest : ∀ q, (∀ m ∈ names, q ≠ outOf m) → r.1 q = disk₀ q := by
      intro q hq
      rw [hr1, Function.update_of_ne (hq n hn)]
      exact h.rest q hq
    have hothers : ∀ m ∈ names, m ≠ n → r.1 (outOf m) = disk (outOf m) := by
      intro m hm hmn
      rw [hr1, Function.update_of_ne (fun he => hmn (hinj m hm n hn he))]
    refine ⟨fun hnone => ⟨fun m hm y hy hty => ?_, fun m hm hno => ?_, hrest⟩, fun e he => ⟨hrest, ⟨p, disk, h, hothers⟩,
      ⟨x.config, disk, disk (outOf n), hcfg, by rw [hr1, Function.update_self], by rw [← hr2, he]⟩, fun hms d hd => ?_⟩⟩
    · rw [hr2] at hnone
      have hm1 := hsame _ _ _ hnone
      rw [hclean] at hm1
      rw [hm1] at hnone
      obtain ⟨d, hd⟩ := Option.isSome_iff_exists.1 (hgives x.config disk none hnone)
      have hd' : Means config deps names outOf merging disk₀ n d := by
        refine Means.mk n x.config disk d hcfg h.rest (fun m hm => ?_) (fun m hm d' hd' => ?_) (Prod.ext hd hnone)
        · obtain ⟨d', h1, _⟩ := hpl m hm
          rw [h1]; simp
        · obtain ⟨d'', h1, h2⟩ := hpl m hm
          rw [h1] at hd'
          cases hd'
          exact h2
      by_cases hmn : m = n
      · subst hmn
        exact ⟨d, by rw [hr1, Function.update_self, hm1, hd], hd'⟩
      · rcases List.mem_append.1 hy with hy | hy
        · obtain ⟨d', h1, h2⟩ := h.done m hm y hy hty
          exact ⟨d', (hothers m hm hmn).trans h1, h2⟩
        · exact absurd (other y m hty (by simpa using hy) hm) hmn
    · have hmn : m ≠ n := by
        rintro rfl
        exact hno x (by simp) hx
      rw [hothers m hm hmn]
      exact h.todo m hm (fun y hy => hno y (List.mem_append_left _ hy))
    · rw [hr2, hms, hclean] at he
      cases hd with
      | mk _ c' disk' _ hc' hp' hs' hm' hmg =>
        rw [hcfg] at hc'
        cases hc'
        have : merging x.config disk none = merging x.config disk' none := by
          refine hreads n hn _ hcfg disk disk' none (fun q hq => ?_)
          by_cases hex : ∃ m ∈ names, q = outOf m
          · obtain ⟨m, hmn, rfl⟩ := hex
            have hmd := hq m hmn rfl
            obtain ⟨d1, h1, h2⟩ := hpl m hmd
            obtain ⟨d2, h3⟩ := Option.ne_none_iff_exists'.1 (hs' m hmd)
            rw [h1, h3, h2.det hclosed hreads hmn (hm' m hmd d2 h3)]
          · have hno : ∀ m ∈ names, q ≠ outOf m := fun m hmn hh => hex ⟨m, hmn, hh⟩
            rw [h.rest q hno, hp' q hno]
        rw [this, hmg] at he
        cases he

theorem executeAll_spec (hclosed : ∀ n ∈ names, ∀ d ∈ deps n, d ∈ names) (hinj : ∀ m ∈ names, ∀ n ∈ names, outOf m = outOf n → m = n)
    (hreads : ReadsOnly config deps names outOf merging) (hgives : GivesOrRaises merging) (lazy : Bool) (present : D → Bool)
    (hstart : ∀ n ∈ names, StartsWell config deps names outOf merging disk₀ lazy present n (disk₀ (outOf n))) {merging₁ : Merging C D E}
    (hsame : ∀ c disk old, (merging₁ c disk old).2 = none → merging₁ c disk old = merging c disk old) :
    ∀ (q p : List (MTask C)) (disk : Disk D), After config deps names outOf merging disk₀ p disk → (p ++ q).Nodup →
      (∀ a x b, p ++ q = a ++ x :: b → ∃ n ∈ names, TaskFor config deps outOf n x) →
      (∀ a x b n, p ++ q = a ++ x :: b → TaskFor config deps outOf n x → ∀ d ∈ deps n, ∃ y ∈ a, TaskFor config deps outOf d y) →
      let r := executeAll lazy present merging₁ disk q
      (r.2 = none → After config deps names outOf merging disk₀ (p ++ q) r.1) ∧
      (∀ e, r.2 = some e → ∃ n ∈ names, Stopped config deps names outOf merging merging₁ disk₀ r.1 n e) := by
  intro q
  induction q with
  | nil =>
    intro p disk h _ _ _
    refine ⟨fun _ => by rw [List.append_nil]; exact h, fun e he => by cases he⟩
  | cons x q ih =>
    intro p disk h hnd hk ho
    obtain ⟨n, hn, hx⟩ := hk p x q rfl
    have hnew : x ∉ p := fun hxp => (List.nodup_append.1 hnd).2.2 x hxp x (List.mem_cons_self ..) rfl
    have hs := h.step hclosed hinj hreads hgives lazy present hstart hsame hn hx hnew (ho p x q n rfl hx)
    simp only at hs
    have e1 : p ++ x :: q = (p ++ [x]) ++ q := by simp
    cases he : executeMerge lazy present merging₁ disk x with
    | mk disk' o =>
      rw [he] at hs
      cases o with
      | none =>
        have := ih (p ++ [x]) disk' (hs.1 rfl) (e1 ▸ hnd) (e1 ▸ hk) (e1 ▸ ho)
        simp only [executeAll, he]
        rw [e1]
        exact this
      | some e =>
        simp only [executeAll, he]
        refine ⟨fun h => (by cases h), fun e' he' => ?_⟩
        cases he'
        exact ⟨n, hn, hs.2 e rfl⟩

end

/-- The order in which the executor executes the tasks of a recipe. -/
noncomputable def order [DecidableEq (MTask C)] (ts : List (Name × MTask C)) (pop : ∀ n, PopOracle n) : List (MTask C) :=
  match runTasks (E := Unit) (system C) (fun _ => "") (fun _ => 0) (fun t _ => .ok t.outPath) pop (ts.map Prod.snd) with
  | none => []
  | some r => executed (universeOf (system C) (ts.map Prod.snd)).1 r.1

theorem order_spec [DecidableEq (MTask C)] (config : Name → Option C) (deps : Name → List Name) (names : List Name) (dir : Str)
    (out : Option Str) (ts : List (Name × MTask C)) (hclosed : ∀ n ∈ names, ∀ d ∈ deps n, d ∈ names)
    (hcfg : ∀ n ∈ names, (config n).isSome = true) (hout : none ∈ names → out.isSome = true)
    (h : makeTasks config deps names dir out = .ok ts) (pop : ∀ n, PopOracle n) :
    let IsTask := TaskFor config deps (outPathOf dir (out.getD []))
    let done := order ts pop
    done.Nodup ∧
    (∀ p x q, done = p ++ x :: q → ∃ n ∈ names, IsTask n x) ∧
    (∀ p x q n, done = p ++ x :: q → IsTask n x → ∀ d ∈ deps n, ∃ y ∈ p, IsTask d y) ∧
    (∀ n ∈ names, ∃ x ∈ done, IsTask n x) := by
  intro IsTask done
  obtain ⟨trace, o, hr, h1, h2, h3, h4⟩ := C55_order (E := Unit) config deps names dir out ts hclosed hcfg hout h (fun t _ => .ok t.outPath) pop
  have hd : done = executed (universeOf (system C) (ts.map Prod.snd)).1 trace := by simp only [done, order, hr]
  obtain ⟨trace', o', hr', -, -, -, -, -, ho⟩ := C02_tasks (E := Unit) (system C) (fun _ => "") (fun _ => 0) (fun t _ => .ok t.outPath) pop
    (ts.map Prod.snd)
  rw [hr] at hr'
  cases hr'
  have hfin : o = .finished := by
    rcases ho with h | ⟨t, e, vals, -, -, h⟩
    · exact h
    · cases h
  rw [hd]
  exact ⟨h1, h2, h3, h4 hfin⟩

theorem Means.move {config : Name → Option C} {deps : Name → List Name} {names : List Name} {outOf : Name → Str} {merging : Merging C D E}
    {disk₀ disk₁ : Disk D} (h : ∀ p, (∀ m ∈ names, p ≠ outOf m) → disk₁ p = disk₀ p) {n : Name} {d : D}
    (hm : Means config deps names outOf merging disk₀ n d) : Means config deps names outOf merging disk₁ n d := by
  induction hm with
  | mk n c disk d hc hp hs _ hm ih => exact .mk n c disk d hc (fun p hpp => (hp p hpp).trans (h p hpp).symm) hs ih hm

/-- **C122** Running a recipe of several merges computes the nested merge: it runs without an exception exactly if every merge in it can be
done, and then the directory of each merge holds what that merge is, the merges it refers to in their places, whatever the order; directories
that are no results are left alone, also if there is an exception.  To begin with the directories of results may be absent, hold results of the
same recipe (kept if lazy), or hold leftovers that are not taken for results and do not disturb. -/
theorem C122_nested [DecidableEq (MTask C)] (config : Name → Option C) (deps : Name → List Name) (names : List Name) (dir : Str)
    (out : Option Str) (ts : List (Name × MTask C)) (hclosed : ∀ n ∈ names, ∀ d ∈ deps n, d ∈ names)
    (hcfg : ∀ n ∈ names, (config n).isSome = true) (hout : none ∈ names → out.isSome = true)
    (h : makeTasks config deps names dir out = .ok ts) (pop : ∀ n, PopOracle n) (merging : Merging C D E) (disk₀ : Disk D) (lazy : Bool)
    (present : D → Bool) :
    let outOf := outPathOf dir (out.getD [])
    let Is := Means config deps names outOf merging disk₀
    (∀ m ∈ names, ∀ n ∈ names, outOf m = outOf n → m = n) → ReadsOnly config deps names outOf merging → GivesOrRaises merging →
    (∀ n ∈ names, StartsWell config deps names outOf merging disk₀ lazy present n (disk₀ (outOf n))) →
    let r := executeAll lazy present merging disk₀ (order ts pop)
    (r.2 = none ↔ ∀ n ∈ names, ∃ d, Is n d) ∧
    (r.2 = none → ∀ n ∈ names, ∀ d, r.1 (outOf n) = some d ↔ Is n d) ∧
    (∀ p, (∀ m ∈ names, p ≠ outOf m) → r.1 p = disk₀ p) := by
  intro outOf Is hinj hreads hgives hstart r
  obtain ⟨h1, h2, h3, h4⟩ := order_spec config deps names dir out ts hclosed hcfg hout h pop
  have hall := executeAll_spec hclosed hinj hreads hgives lazy present hstart (merging₁ := merging) (fun _ _ _ _ => rfl) (order ts pop) [] disk₀
    ⟨by simp, fun _ _ _ => rfl, fun _ _ => rfl⟩ (by simpa using h1) (by simpa using h2) (by simpa using h3)
  simp only [List.nil_append] at hall
  have hd : r.2 = none → ∀ n ∈ names, ∃ d, r.1 (outOf n) = some d ∧ Is n d := by
    intro hn n hnn
    obtain ⟨x, hx, hxt⟩ := h4 n hnn
    exact (hall.1 hn).done n hnn x hx hxt
  refine ⟨⟨fun hn n hnn => ?_, fun hex => ?_⟩, fun hn n hnn d => ⟨fun hrd => ?_, fun hid => ?_⟩, fun p hp => ?_⟩
  · obtain ⟨d, _, hd⟩ := hd hn n hnn
    exact ⟨d, hd⟩
  · cases he : r.2 with
    | none => rfl
    | some e =>
      obtain ⟨n, hn, hno⟩ := hall.2 e he
      obtain ⟨d, hd⟩ := hex n hn
      exact absurd hd (hno.cause rfl d)
  · obtain ⟨d', h5, h6⟩ := hd hn n hnn
    rw [h5] at hrd
    cases hrd
    exact h6
  · obtain ⟨d', h5, h6⟩ := hd hn n hnn
    rw [h5, h6.det hclosed hreads hnn hid]
  · cases he : r.2 with
    | none => exact (hall.1 he).rest p hp
    | some e =>
      obtain ⟨n, hn, hno⟩ := hall.2 e he
      exact hno.rest p hp

/-- **C122** Taking up a recipe again: if a first run was stopped at some merge for a reason that is gone (`merging₁` raised where `merging` may
not), the second run, lazily, gives what the recipe means, provided that finished merges are recognised as such and an interrupted one leaves
nothing that is taken for a result or disturbs. -/
theorem C122_resume [DecidableEq (MTask C)] (config : Name → Option C) (deps : Name → List Name) (names : List Name) (dir : Str)
    (out : Option Str) (ts : List (Name × MTask C)) (hclosed : ∀ n ∈ names, ∀ d ∈ deps n, d ∈ names)
    (hcfg : ∀ n ∈ names, (config n).isSome = true) (hout : none ∈ names → out.isSome = true)
    (h : makeTasks config deps names dir out = .ok ts) (pop pop' : ∀ n, PopOracle n) (merging merging₁ : Merging C D E) (disk₀ : Disk D)
    (present : D → Bool) :
    let outOf := outPathOf dir (out.getD [])
    let Is := Means config deps names outOf merging disk₀
    (∀ m ∈ names, ∀ n ∈ names, outOf m = outOf n → m = n) → ReadsOnly config deps names outOf merging → GivesOrRaises merging →
    (∀ n ∈ names, disk₀ (outOf n) = none) →
    (∀ c disk old, (merging₁ c disk old).2 = none → merging₁ c disk old = merging c disk old) →
    (∀ n ∈ names, ∀ d, Is n d → present d = true) →
    (∀ c disk old d e, merging₁ c disk old = (some d, some e) → present d = false ∧ ∀ c' disk', merging c' disk' (some d) = merging c' disk' none) →
    let r₁ := executeAll true present merging₁ disk₀ (order ts pop)
    let r := executeAll true present merging r₁.1 (order ts pop')
    (r.2 = none ↔ ∀ n ∈ names, ∃ d, Is n d) ∧
    (r.2 = none → ∀ n ∈ names, ∀ d, r.1 (outOf n) = some d ↔ Is n d) ∧
    (∀ p, (∀ m ∈ names, p ≠ outOf m) → r.1 p = disk₀ p) := by
  intro outOf Is hinj hreads hgives hempty hsame hpres hleft r₁ r
  obtain ⟨h1, h2, h3, h4⟩ := order_spec config deps names dir out ts hclosed hcfg hout h pop
  have hstart : ∀ n ∈ names, StartsWell config deps names outOf merging disk₀ true present n (disk₀ (outOf n)) := by
    intro n hn
    rw [hempty n hn]
    trivial
  have hall := executeAll_spec hclosed hinj hreads hgives true present hstart hsame (order ts pop) [] disk₀
    ⟨by simp, fun _ _ _ => rfl, fun _ _ => rfl⟩ (by simpa using h1) (by simpa using h2) (by simpa using h3)
  simp only [List.nil_append] at hall
  have hrest : ∀ p, (∀ m ∈ names, p ≠ outOf m) → r₁.1 p = disk₀ p := by
    intro p hp
    cases he : r₁.2 with
    | none => exact (hall.1 he).rest p hp
    | some e =>
      obtain ⟨n, hn, hno⟩ := hall.2 e he
      exact hno.rest p hp
  have after : ∀ (p : List (MTask C)) (disk : Disk D), After config deps names outOf merging disk₀ p disk → ∀ n ∈ names, ∀ d, disk (outOf n) = some d → Is n d := by
    intro p disk ha n hn d hd
    by_cases hex : ∃ x ∈ p, TaskFor config deps outOf n x
    · obtain ⟨x, hx, hxt⟩ := hex
      obtain ⟨d', g1, g2⟩ := ha.done n hn x hx hxt
      rw [hd] at g1
      cases g1
      exact g2
    · have := ha.todo n hn (fun x hx hxt => hex ⟨x, hx, hxt⟩)
      rw [hempty n hn, hd] at this
      cases this
  have hback : ∀ n d, Means config deps names outOf merging r₁.1 n d ↔ Is n d :=
    fun n d => ⟨fun hm => hm.move (fun p hp => (hrest p hp).symm), fun hm => hm.move hrest⟩
  have hstart₁ : ∀ n ∈ names, StartsWell config deps names outOf merging r₁.1 true present n (r₁.1 (outOf n)) := by
    intro n hn
    cases hd : r₁.1 (outOf n) with
    | none => trivial
    | some d =>
      have good : Is n d → StartsWell config deps names outOf merging r₁.1 true present n (some d) :=
        fun hi => Or.inl ⟨rfl, hpres n hn d hi, (hback n d).2 hi⟩
      cases he : r₁.2 with
      | none => exact good (after _ _ (hall.1 he) n hn d hd)
      | some e =>
        obtain ⟨m, hm, hs⟩ := hall.2 e he
        by_cases hmn : n = m
        · subst hmn
          obtain ⟨c, disk', old, _, g1, g2⟩ := hs.left
          have g1' : some d = (merging₁ c disk' old).1 := hd.symm.trans g1
          have := hleft c disk' old d e (Prod.ext g1'.symm g2)
          exact Or.inr ⟨fun _ => this.1, fun c disk _ => this.2 c disk⟩
        · obtain ⟨p, disk', ha, hsame'⟩ := hs.before
          exact good (after p disk' ha n hn d ((hsame' n hn hmn).symm.trans hd))
  have hres := C122_nested config deps names dir out ts hclosed hcfg hout h pop' merging r₁.1 true present hinj hreads hgives hstart₁
  simp only at hres
  obtain ⟨g1, g2, g3⟩ := hres
  refine ⟨?_, ?_, fun p hp => (g3 p hp).trans (hrest p hp)⟩
  · rw [g1]
    exact forall₂_congr (fun n _ => exists_congr (fun d => hback n d))
  · intro hn n hnn d
    rw [g2 hn n hnn d]
    exact hback n d

/-- **C122** Lazily, a directory that is taken for a result is kept, whatever the recipe now says. -/
theorem C122_kept (present : D → Bool) (merging : Merging C D E) (ts : List (MTask C)) (disk : Disk D) (p : Str) (d : D) (hd : disk p = some d)
    (hp : present d = true) : (executeAll true present merging disk ts).1 p = some d := by
  induction ts generalizing disk with
  | nil => exact hd
  | cons t ts ih =>
    have hstep : (executeMerge true present merging disk t).1 p = some d := by
      unfold executeMerge
      split
      · exact hd
      · rename_i hno
        have : t.outPath ≠ p := by
          intro he
          rw [he, hd] at hno
          simp [hp] at hno
        simp only
        rw [Function.update_of_ne (fun he => this he.symm)]
        exact hd
    simp only [executeAll]
    cases he : executeMerge true present merging disk t with
    | mk disk' o =>
      rw [he] at hstep
      cases o with
      | none => exact ih disk' hstep
      | some e => exact hstep

/-! ## A recipe of two merges -/

/-- A merge that adds up what it reads. -/
def adding : Merging (List Str) Nat Unit := fun c disk old =>
  match c.mapM disk with
  | some l => (some (l.sum + 1), none)
  | none => (old, some ())

/-- `a` reads the model `m`, the final merge reads `a` and `m`. -/
def twoConfig : Name → Option (List Str)
  | none => some [['d', '/', 'a'], ['m']]
  | some ['a'] => some [['m']]
  | _ => none

/-- Their references. -/
def twoDeps : Name → List Name
  | none => [some ['a']]
  | _ => []

theorem adding_reads : ReadsOnly twoConfig twoDeps [none, some ['a']] (outPathOf ['d'] ['o']) adding := by
  intro n hn c hc disk disk' old h
  have key : ∀ l : List Str, (∀ p ∈ l, disk p = disk' p) → l.mapM disk = l.mapM disk' := by
    intro l
    induction l with
    | nil => intro _; rfl
    | cons p l ih =>
      intro hl
      rw [List.mapM_cons, List.mapM_cons, hl p (List.mem_cons_self ..), ih (fun q hq => hl q (List.mem_cons_of_mem _ hq))]
  have : c.mapM disk = c.mapM disk' := by
    apply key
    intro p hp
    apply h
    simp only [List.mem_cons, List.not_mem_nil, or_false] at hn
    rcases hn with rfl | rfl
    · simp only [twoConfig, Option.some.injEq] at hc
      subst hc
      revert p
      decide
    · simp only [twoConfig, Option.some.injEq] at hc
      subst hc
      revert p
      decide
  simp only [adding, this]

/-- The only model to begin with. -/
def onlyM (x : Nat) : Disk Nat := fun p => if p = ['m'] then some x else none

theorem means_a (x : Nat) : Means twoConfig twoDeps [none, some ['a']] (outPathOf ['d'] ['o']) adding (onlyM x) (some ['a']) (x + 1) :=
  .mk _ [['m']] (onlyM x) _ rfl (fun _ _ => rfl) (by intro m hm; cases hm) (by intro m hm; cases hm) (by simp [adding, onlyM])

theorem means_final (x : Nat) : Means twoConfig twoDeps [none, some ['a']] (outPathOf ['d'] ['o']) adding (onlyM x) none (x + 1 + x + 1) := by
  refine .mk _ [['d', '/', 'a'], ['m']] (Function.update (onlyM x) ['d', '/', 'a'] (some (x + 1))) _ rfl ?_ ?_ ?_ ?_
  · intro p hp
    have : p ≠ ['d', '/', 'a'] := hp (some ['a']) (by simp)
    rw [Function.update_of_ne this]
  · intro m hm
    simp only [twoDeps, List.mem_singleton] at hm
    subst hm
    simp [outPathOf, pathJoin]
  · intro m hm d' hd'
    simp only [twoDeps, List.mem_singleton] at hm
    subst hm
    simp only [outPathOf, pathJoin] at hd'
    simp at hd'
    subst hd'
    exact means_a x
  · simp [adding, onlyM, Function.update]

theorem means_all (x : Nat) : ∀ n ∈ [none, some ['a']], ∃ d, Means twoConfig twoDeps [none, some ['a']] (outPathOf ['d'] ['o']) adding (onlyM x) n d := by
  intro n hn
  simp only [List.mem_cons, List.not_mem_nil, or_false] at hn
  rcases hn with rfl | rfl
  · exact ⟨_, means_final x⟩
  · exact ⟨_, means_a x⟩

theorem adding_gives : GivesOrRaises adding := by
  intro c disk old hn
  unfold adding at hn ⊢
  split <;> simp_all

theorem onlyM_empty (x : Nat) : ∀ n ∈ [none, some ['a']], onlyM x (outPathOf ['d'] ['o'] n) = none := by
  intro n hn
  simp only [List.mem_cons, List.not_mem_nil, or_false] at hn
  rcases hn with rfl | rfl <;> rfl

example (x : Nat) (pop : ∀ n, PopOracle n) [DecidableEq (MTask (List Str))] : ∃ ts, makeTasks twoConfig twoDeps [none, some ['a']] ['d'] (some ['o']) = .ok ts ∧
    let r := executeAll true (fun _ => true) adding (onlyM x) (order ts pop)
    r.2 = none ∧ r.1 ['d', '/', 'a'] = some (x + 1) ∧ r.1 ['o'] = some (x + 1 + x + 1) := by
  refine ⟨_, rfl, ?_⟩
  have h := C122_nested twoConfig twoDeps [none, some ['a']] ['d'] (some ['o']) _ (by decide) (by decide) (by decide) rfl pop adding (onlyM x) true
    (fun _ => true) (by decide) adding_reads adding_gives (by
      intro n hn
      rw [show onlyM x (outPathOf ['d'] ((some ['o'] : Option Str).getD []) n) = none from onlyM_empty x n hn]
      trivial)
  simp only at h
  obtain ⟨h1, h2, h3⟩ := h
  have hr := h1.2 (means_all x)
  exact ⟨hr, (h2 hr (some ['a']) (by simp) (x + 1)).2 (means_a x), (h2 hr none (by simp) _).2 (means_final x)⟩

/-- The same merges, of which the final one fails for some reason, leaving an incomplete directory. -/
def failing : Merging (List Str) Nat Unit := fun c disk old => if c.length = 2 then (none, some ()) else
  match adding c disk old with
  | (d, none) => (d, none)
  | (_, some e) => (none, some e)

example (x : Nat) (pop pop' : ∀ n, PopOracle n) [DecidableEq (MTask (List Str))] : ∃ ts, makeTasks twoConfig twoDeps [none, some ['a']] ['d'] (some ['o']) = .ok ts ∧
    let r₁ := executeAll true (fun _ => true) failing (onlyM x) (order ts pop)
    let r := executeAll true (fun _ => true) adding r₁.1 (order ts pop')
    r.2 = none ∧ r.1 ['d', '/', 'a'] = some (x + 1) ∧ r.1 ['o'] = some (x + 1 + x + 1) := by
  refine ⟨_, rfl, ?_⟩
  have h := C122_resume twoConfig twoDeps [none, some ['a']] ['d'] (some ['o']) _ (by decide) (by decide) (by decide) rfl pop pop' adding failing
    (onlyM x) (fun _ => true) (by decide) adding_reads adding_gives (onlyM_empty x) (by
      intro c disk old hn
      unfold failing at hn ⊢
      split at hn
      · cases hn
      · rename_i hc
        rw [if_neg hc]
        cases ha : adding c disk old with
        | mk d o => cases o <;> simp_all) (fun _ _ _ _ => rfl) (by
      intro c disk old d e hd
      unfold failing at hd
      split at hd
      · cases hd
      · cases ha : adding c disk old with
        | mk d o => cases o <;> simp_all)
  simp only at h
  obtain ⟨h1, h2, h3⟩ := h
  have hr := h1.2 (means_all x)
  exact ⟨hr, (h2 hr (some ['a']) (by simp) (x + 1)).2 (means_a x), (h2 hr none (by simp) _).2 (means_final x)⟩

/-! ## Interrupted merges that look finished -/

/-- A merge that is interrupted after the weights and the configuration are on disk (merge.py:99-145): what is there is not yet the result. -/
def interrupted : Merging Unit Nat Unit := fun _ _ _ => (some 1, some ())

/-- The same merge undisturbed. -/
def undisturbed : Merging Unit Nat Unit := fun _ _ _ => (some 2, none)

/-- **C122** The last provision of `C122_resume` is needed, and the code does not see to it: the weights and the configuration, by which a
merge is recognised, are written before the tokenizer and the remaining files.  A recipe taken up again after an interruption there runs
without an exception and leaves the incomplete merge as the result. -/
theorem C122_interrupted_counterexample [DecidableEq (MTask Unit)] (pop pop' : ∀ n, PopOracle n) :
    ∃ ts, makeTasks (fun _ => some ()) (fun _ => []) [none] ['d'] (some ['o']) = .ok ts ∧
      let r₁ := executeAll true (fun _ => true) interrupted (fun _ => none) (order ts pop)
      let r := executeAll true (fun _ => true) undisturbed r₁.1 (order ts pop')
      r₁.2 = some () ∧ r.2 = none ∧ r.1 ['o'] = some 1 ∧
      (∀ d, Means (fun _ => some ()) (fun _ => []) [none] (outPathOf ['d'] ['o']) undisturbed (fun _ => none) none d ↔ d = 2) := by
  refine ⟨_, rfl, ?_⟩
  intro r₁ r
  obtain ⟨_, h2, _, h4⟩ := order_spec (fun _ => some ()) (fun _ => []) [none] ['d'] (some ['o']) _ (by decide) (by decide) (by decide) rfl pop
  obtain ⟨_, h2', _, _⟩ := order_spec (fun _ => some ()) (fun _ => []) [none] ['d'] (some ['o']) _ (by decide) (by decide) (by decide) rfl pop'
  have hpath : ∀ {x : MTask Unit} {n : Name}, n ∈ [none] → TaskFor (fun _ => some ()) (fun _ => []) (outPathOf ['d'] ['o']) n x → x.outPath = ['o'] := by
    intro x n hn hx
    simp only [List.mem_singleton] at hn
    subst hn
    cases hx
    rfl
  have hr₁ : r₁.2 = some () ∧ r₁.1 ['o'] = some 1 := by
    obtain ⟨x, hx, _⟩ := h4 none (by simp)
    simp only [r₁]
    cases ho : order [(none, MTask.mk () "final merge".toList ['o'] [])] pop with
    | nil =>
      have hx' := hx
      change x ∈ order [(none, MTask.mk () "final merge".toList ['o'] [])] pop at hx'
      rw [ho] at hx'
      cases hx'
    | cons y ys =>
      obtain ⟨n, hn, hy⟩ := h2 [] y ys ho
      have hp := hpath hn hy
      show (executeAll true (fun _ => true) interrupted (fun _ => none) (order [(none, MTask.mk () "final merge".toList ['o'] [])] pop)).2 = _ ∧
        (executeAll true (fun _ => true) interrupted (fun _ => none) (order [(none, MTask.mk () "final merge".toList ['o'] [])] pop)).1 _ = _
      rw [ho]
      simp [executeAll, executeMerge, interrupted, hp]
  refine ⟨hr₁.1, ?_, C122_kept _ _ _ _ _ _ hr₁.2 rfl, fun d => ⟨fun h => ?_, fun h => ?_⟩⟩
  · have : ∀ (l : List (MTask Unit)) (disk : Disk Nat), (∀ x ∈ l, x.outPath = ['o']) → disk ['o'] = some 1 →
        (executeAll true (fun _ => true) undisturbed disk l).2 = none := by
      intro l
      induction l with
      | nil => intro _ _ _; rfl
      | cons x l ih =>
        intro disk hl hd
        have : executeMerge true (fun _ => true) undisturbed disk x = (disk, none) := by
          unfold executeMerge
          rw [hl x (List.mem_cons_self ..), hd]
          rfl
        simp only [executeAll, this]
        exact ih disk (fun y hy => hl y (List.mem_cons_of_mem _ hy)) hd
    refine this _ _ (fun x hx => ?_) hr₁.2
    obtain ⟨p, q, hpq⟩ := List.append_of_mem hx
    obtain ⟨n, hn, hy⟩ := h2' p x q hpq
    exact hpath hn hy
  · cases h with
    | mk _ c disk _ _ _ _ _ hm =>
      simp only [undisturbed, Prod.mk.injEq, Option.some.injEq, and_true] at hm
      exact hm.symm
  · subst h
    exact .mk none () (fun _ => none) 2 rfl (fun _ _ => rfl) (by intro m hm; cases hm) (by intro m hm; cases hm) rfl

end Verif.MultiMerge
