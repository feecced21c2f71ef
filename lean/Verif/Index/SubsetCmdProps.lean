import Verif.Index.SubsetCmd
import Verif.Index.SubsetDiskProps
import Mathlib.Data.List.Infix
import Mathlib.Data.List.TakeWhile

/-!
# C154: the command line of the subset tool means what its options say
-/

namespace Verif.Index.SubsetCmd
open Verif.GridSpec Verif.Index.SubsetDisk

variable {W : Type}

/-! ### specification -/

/-- What can be asked for. -/
inductive Setting where
  | conf (path : Text)
  | outDir (path : Text)
  | allowMissing
  | strict
  | dryRun
  | logLevel (l : Text)

/-- Later settings replace earlier ones. -/
def Setting.on (o : Opts) : Setting → Opts
  | .conf p => { o with conf := p }
  | .outDir p => { o with outDir := p }
  | .allowMissing => { o with allowMissing := true }
  | .strict => { o with strict := true }
  | .dryRun => { o with dryRun := true }
  | .logLevel l => { o with logLevel := l }

/-- The word is the option or begins it, with at least one letter after the dashes. -/
def Begins (w full : Text) : Prop := w <+: full ∧ 3 ≤ w.length

/-- All option strings with two dashes. -/
def longOptions : List Text :=
  ["--help".toList, "--conf".toList, "--out-dir".toList, "--allow-missing".toList, "--strict".toList, "--dry-run".toList, "--log-level".toList]

/-- What can stand as the value of an option in a word of its own: anything that does not begin with a dash, the dash alone, and what
begins with a dash but begins no option and is a negative number or has a space. -/
def Worth (neg : Text → Bool) (v : Text) : Prop :=
  v.head? ≠ some '-' ∨ v = ['-'] ∨
    ((neg v = true ∨ ' ' ∈ v) ∧ ¬ ['-', 'h'] <+: v ∧ (['-', '-'] <+: v → ∀ f ∈ longOptions, ¬ (v.takeWhile (· != '=')) <+: f))

/-- The ways to write an option with a value: two words, or one with an equals sign. -/
inductive Written (neg : Text → Bool) (full v : Text) : List Text → Prop where
  | apart (w : Text) (hw : Begins w full) (hv : Worth neg v) : Written neg full v [w, v]
  | joined (w : Text) (hw : Begins w full) : Written neg full v [w ++ '=' :: v]

/-- The ways to write a setting. -/
inductive Spells (neg : Text → Bool) : Setting → List Text → Prop where
  | conf (v : Text) (ts : List Text) (h : Written neg "--conf".toList v ts) : Spells neg (.conf v) ts
  | outDir (v : Text) (ts : List Text) (h : Written neg "--out-dir".toList v ts) : Spells neg (.outDir v) ts
  | logLevel (v : Text) (ts : List Text) (h : Written neg "--log-level".toList v ts)
      (hv : v ∈ ["debug".toList, "info".toList, "warn".toList, "error".toList, "critical".toList]) : Spells neg (.logLevel v) ts
  | allowMissing (w : Text) (h : Begins w "--allow-missing".toList) : Spells neg .allowMissing [w]
  | strict (w : Text) (h : Begins w "--strict".toList) : Spells neg .strict [w]
  | dryRun (w : Text) (h : Begins w "--dry-run".toList) : Spells neg .dryRun [w]

/-! ### lemmas -/

theorem found_begins {w : Text} {k : Opt} (h : Begins w (name k)) : found w = [k] ∧ '=' ∉ w ∧ ['-', '-'].isPrefixOf w = true ∧
    w.head? = some '-' ∧ w ≠ ['-'] := by
  have hall : ∀ k ∈ ALL, ∀ w ∈ (name k).inits, 3 ≤ w.length → found w = [k] ∧ '=' ∉ w ∧ ['-', '-'].isPrefixOf w = true ∧
    w.head? = some '-' ∧ w ≠ ['-'] := by decide +kernel
  exact hall k (by cases k <;> decide) w ((List.mem_inits _ _).2 h.1) h.2

theorem found_prefix {pre : Text} {k : Opt} : k ∈ found pre ↔ pre <+: name k := by
  unfold found
  rw [List.mem_filter, List.isPrefixOf_iff_prefix]
  exact ⟨fun h => h.2, fun h => ⟨by cases k <;> decide, h⟩⟩

theorem found_nil {pre : Text} : found pre = [] ↔ ∀ f ∈ longOptions, ¬ pre <+: f := by
  have hn : ∀ f, f ∈ longOptions ↔ ∃ k, f = name k := by
    have e : longOptions = ALL.map name := by decide +kernel
    intro f
    rw [e, List.mem_map]
    exact ⟨fun ⟨k, _, hk⟩ => ⟨k, hk.symm⟩, fun ⟨k, hk⟩ => ⟨k, by cases k <;> decide, hk.symm⟩⟩
  rw [List.eq_nil_iff_forall_not_mem]
  constructor
  · intro h f hf hp
    obtain ⟨k, rfl⟩ := (hn f).1 hf
    exact h k (found_prefix.2 hp)
  · intro h k hk
    exact h _ ((hn _).2 ⟨k, rfl⟩) (found_prefix.1 hk)

theorem cutEq_none {t : Text} (h : '=' ∉ t) : cutEq t = (t, none) := by
  unfold cutEq
  rw [if_neg h, List.takeWhile_eq_self_iff.2]
  intro c hc
  simp only [bne_iff_ne, ne_eq]
  rintro rfl
  exact h hc

theorem cutEq_some {w v : Text} (h : '=' ∉ w) : cutEq (w ++ '=' :: v) = (w, some v) := by
  have hw : ∀ c ∈ w, (c != '=') = true := by
    intro c hc
    simp only [bne_iff_ne, ne_eq]
    rintro rfl
    exact h hc
  unfold cutEq
  rw [if_pos (by simp), List.takeWhile_append_of_pos hw, List.dropWhile_append_of_pos hw]
  simp

/-- An option with what follows its equals sign. -/
def whole (w : Text) : Option Text → Text
  | none => w
  | some v => w ++ '=' :: v

theorem cutEq_back (t : Text) : t = whole (cutEq t).1 (cutEq t).2 := by
  by_cases h : '=' ∈ t
  · obtain ⟨a, b, rfl, ha⟩ := List.eq_append_cons_of_mem h
    rw [cutEq_some ha]
    rfl
  · rw [cutEq_none h]
    rfl

theorem classify_begins (neg : Text → Bool) {w : Text} {k : Opt} (h : Begins w (name k)) : classify neg w = .opt k none := by
  obtain ⟨h1, h2, h3, h4, h5⟩ := found_begins h
  unfold classify
  rw [if_neg (by simp [h4, h5]), if_pos h3, cutEq_none h2, h1]

theorem classify_joined (neg : Text → Bool) {w v : Text} {k : Opt} (h : Begins w (name k)) : classify neg (w ++ '=' :: v) = .opt k (some v) := by
  obtain ⟨h1, h2, h3, h4, h5⟩ := found_begins h
  unfold classify
  have h6 : (w ++ '=' :: v).head? = some '-' := by
    cases w with
    | nil => cases h4
    | cons c w => exact h4
  have h7 : w ++ '=' :: v ≠ ['-'] := by
    intro e
    have := congrArg List.length e
    have h8 := h.2
    simp at this
    omega
  have h9 : ['-', '-'].isPrefixOf (w ++ '=' :: v) = true := by
    rw [List.isPrefixOf_iff_prefix] at h3 ⊢
    exact h3.trans (List.prefix_append _ _)
  rw [if_neg (by simp [h6, h7]), if_pos h9, cutEq_some h2, h1]

/-- Two dashes alone begin all options. -/
theorem found_one {pre : Text} {k : Opt} (h : found pre = [k]) : 3 ≤ pre.length := by
  by_contra hlt
  have hk : pre <+: name k := found_prefix.1 (by rw [h]; exact List.mem_singleton.2 rfl)
  have hall : ∀ k ∈ ALL, ∀ w ∈ (name k).inits, ¬ 3 ≤ w.length → found w ≠ [k] := by decide +kernel
  exact hall k (by cases k <;> decide) pre ((List.mem_inits _ _).2 hk) hlt h

theorem classify_opt (neg : Text → Bool) {t : Text} {k : Opt} {ex : Option Text} (hk : k ≠ .help) (h : classify neg t = .opt k ex) :
    ∃ w, Begins w (name k) ∧ t = whole w ex := by
  unfold classify leftOver at h
  split at h
  · cases h
  · split at h
    · split at h
      · rename_i k' hf
        cases h
        exact ⟨(cutEq t).1, ⟨found_prefix.1 (by rw [hf]; exact List.mem_singleton.2 rfl), found_one hf⟩, cutEq_back t⟩
      · split at h <;> cases h
      · cases h
    · split at h
      · cases h; exact absurd rfl hk
      · split at h <;> cases h

theorem classify_value (neg : Text → Bool) (t : Text) : classify neg t = .value ↔ Worth neg t := by
  unfold classify Worth leftOver
  by_cases h1 : t.head? ≠ some '-' ∨ t = ['-']
  · rw [if_pos h1]
    refine ⟨fun _ => ?_, fun _ => rfl⟩
    rcases h1 with h1 | h1
    · exact .inl h1
    · exact .inr (.inl h1)
  · rw [if_neg h1]
    rw [not_or] at h1
    by_cases h2 : ['-', '-'].isPrefixOf t = true
    · rw [if_pos h2]
      have h2' := List.isPrefixOf_iff_prefix.1 h2
      have h3 : ¬ ['-', 'h'] <+: t := by
        rintro ⟨a, rfl⟩
        obtain ⟨b, hb⟩ := h2'
        simp at hb
      cases hf : found (cutEq t).1 with
      | nil =>
        have hf' := found_nil.1 hf
        have : (cutEq t).1 = t.takeWhile (· != '=') := rfl
        rw [this] at hf'
        constructor
        · intro h
          simp only at h
          split at h
          · rename_i hn; exact .inr (.inr ⟨hn, h3, fun _ => hf'⟩)
          · cases h
        · rintro (h | h | ⟨hn, _, _⟩)
          · exact absurd h h1.1
          · exact absurd h h1.2
          · simp only; rw [if_pos hn]
      | cons k ks =>
        have hbad : ¬ Worth neg t := by
          rintro (h | h | ⟨_, _, h⟩)
          · exact h1.1 h
          · exact h1.2 h
          · have := found_nil.2 (h h2')
            have e : (cutEq t).1 = t.takeWhile (· != '=') := rfl
            rw [← e, hf] at this
            cases this
        unfold Worth at hbad
        cases ks with
        | nil => exact ⟨fun h => (by cases h), fun h => absurd h hbad⟩
        | cons k' ks => exact ⟨fun h => (by cases h), fun h => absurd h hbad⟩
    · rw [if_neg h2]
      rw [List.isPrefixOf_iff_prefix] at h2
      by_cases h3 : ['-', 'h'].isPrefixOf t = true
      · rw [if_pos h3]
        rw [List.isPrefixOf_iff_prefix] at h3
        constructor
        · intro h; cases h
        · rintro (h | h | ⟨_, h, _⟩)
          · exact absurd h h1.1
          · exact absurd h h1.2
          · exact absurd h3 h
      · rw [if_neg h3]
        rw [List.isPrefixOf_iff_prefix] at h3
        constructor
        · intro h
          split at h
          · rename_i hn; exact .inr (.inr ⟨hn, h3, fun h => absurd h h2⟩)
          · cases h
        · rintro (h | h | ⟨hn, _, _⟩)
          · exact absurd h h1.1
          · exact absurd h h1.2
          · rw [if_pos hn]

theorem parse_flag (neg : Text → Bool) (o o' : Opts) (k : Opt) (w : Text) (rest : List Text) (h : Begins w (name k)) (hf : isFlag k = true)
    (hr : raise o k = some o') : parse neg o (w :: rest) = parse neg o' rest := by
  rw [parse, classify_begins neg h]
  simp only [hf, if_true, hr]

theorem parse_written (neg : Text → Bool) (o o' : Opts) (k : Opt) (v : Text) (ts rest : List Text) (h : Written neg (name k) v ts)
    (hf : isFlag k = false) (hs : store o k v = some o') : parse neg o (ts ++ rest) = parse neg o' rest := by
  cases h with
  | apart w hw hv =>
    show parse neg o (w :: v :: rest) = _
    rw [parse, classify_begins neg hw]
    simp only [hf, Bool.false_eq_true, if_false, (classify_value neg v).2 hv, if_true, hs]
  | joined w hw =>
    show parse neg o ((w ++ '=' :: v) :: rest) = _
    rw [parse, classify_joined neg hw]
    simp only [hs]

theorem parse_spells (neg : Text → Bool) (o : Opts) (x : Setting) (ts rest : List Text) (h : Spells neg x ts) :
    parse neg o (ts ++ rest) = parse neg (x.on o) rest := by
  cases h with
  | conf v ts h => exact parse_written neg o _ .conf v ts rest h rfl rfl
  | outDir v ts h => exact parse_written neg o _ .outDir v ts rest h rfl rfl
  | logLevel v ts h hv => exact parse_written neg o _ .logLevel v ts rest h rfl (if_pos hv)
  | allowMissing w h => exact parse_flag neg o _ .allowMissing w rest h rfl rfl
  | strict w h => exact parse_flag neg o _ .strict w rest h rfl rfl
  | dryRun w h => exact parse_flag neg o _ .dryRun w rest h rfl rfl

theorem spells_store (neg : Text → Bool) (o o' : Opts) (k : Opt) (v : Text) (ts : List Text) (h : Written neg (name k) v ts)
    (hs : store o k v = some o') : ∃ x, Spells neg x ts ∧ o' = x.on o := by
  cases k with
  | conf => cases hs; exact ⟨.conf v, .conf v ts h, rfl⟩
  | outDir => cases hs; exact ⟨.outDir v, .outDir v ts h, rfl⟩
  | logLevel =>
    simp only [store] at hs
    split at hs
    · rename_i hv; cases hs; exact ⟨.logLevel v, .logLevel v ts h hv, rfl⟩
    · cases hs
  | help => cases hs
  | allowMissing => cases hs
  | strict => cases hs
  | dryRun => cases hs

theorem spells_raise (neg : Text → Bool) (o o' : Opts) (k : Opt) (w : Text) (h : Begins w (name k))
    (hs : raise o k = some o') : ∃ x, Spells neg x [w] ∧ o' = x.on o := by
  cases k with
  | conf => cases hs
  | outDir => cases hs
  | logLevel => cases hs
  | help => cases hs
  | allowMissing => cases hs; exact ⟨_, .allowMissing w h, rfl⟩
  | strict => cases hs; exact ⟨_, .strict w h, rfl⟩
  | dryRun => cases hs; exact ⟨_, .dryRun w h, rfl⟩

/-- A list of settings, each with the words that spell it. -/
abbrev Line := List (Setting × List Text)

theorem parse_first (neg : Text → Bool) (o o' : Opts) (w : Text) (ws : List Text) (h : parse neg o (w :: ws) = some o') :
    ∃ x ts rest, Spells neg x ts ∧ w :: ws = ts ++ rest ∧ rest.length ≤ ws.length ∧ parse neg (x.on o) rest = some o' := by
  rw [parse] at h
  cases hc : classify neg w with
  | value => rw [hc] at h; cases h
  | bad => rw [hc] at h; cases h
  | opt k ex =>
    rw [hc] at h
    by_cases hk : k = .help
    · subst hk
      exfalso
      cases ex with
      | some v => cases h
      | none =>
        cases ws with
        | nil => cases h
        | cons v ws =>
          simp only [isFlag, Bool.false_eq_true, if_false, store] at h
          split at h <;> cases h
    · obtain ⟨b, hb, hw⟩ := classify_opt neg hk hc
      cases ex with
      | some v =>
        simp only at h
        cases hs : store o k v with
        | none => rw [hs] at h; cases h
        | some o1 =>
          rw [hs] at h
          obtain ⟨x, hx, rfl⟩ := spells_store neg o o1 k v [b ++ '=' :: v] (.joined b hb) hs
          exact ⟨x, _, ws, hx, by rw [hw]; rfl, le_refl _, h⟩
      | none =>
        simp only at h
        have hw : w = b := hw
        subst hw
        cases hf : isFlag k with
        | true =>
          rw [hf, if_pos rfl] at h
          cases hs : raise o k with
          | none => rw [hs] at h; cases h
          | some o1 =>
            rw [hs] at h
            obtain ⟨x, hx, rfl⟩ := spells_raise neg o o1 k w hb hs
            exact ⟨x, _, ws, hx, rfl, le_refl _, h⟩
        | false =>
          rw [hf, if_neg (by simp)] at h
          cases ws with
          | nil => cases h
          | cons v ws =>
            simp only at h
            split at h
            · rename_i hv
              cases hs : store o k v with
              | none => rw [hs] at h; cases h
              | some o1 =>
                rw [hs] at h
                obtain ⟨x, hx, rfl⟩ := spells_store neg o o1 k v [w, v] (.apart w hb ((classify_value neg v).1 hv)) hs
                exact ⟨x, _, ws, hx, rfl, by simp, h⟩
            · cases h

theorem parse_iff (neg : Text → Bool) (o o' : Opts) (args : List Text) :
    parse neg o args = some o' ↔ ∃ ss : Line, (∀ p ∈ ss, Spells neg p.1 p.2) ∧ args = (ss.map Prod.snd).flatten ∧
      o' = (ss.map Prod.fst).foldl Setting.on o := by
  constructor
  · intro h
    generalize hn : args.length = n
    induction n using Nat.strong_induction_on generalizing args o with
    | _ n ih =>
      cases args with
      | nil => cases h; exact ⟨[], by simp, rfl, rfl⟩
      | cons w ws =>
        obtain ⟨x, ts, rest, hx, he, hl, hp⟩ := parse_first neg o o' w ws h
        obtain ⟨ss, h1, h2, h3⟩ := ih rest.length (by rw [← hn, List.length_cons]; omega) (x.on o) rest hp rfl
        refine ⟨(x, ts) :: ss, ?_, ?_, h3⟩
        · intro p hp
          rcases List.mem_cons.1 hp with rfl | hp
          · exact hx
          · exact h1 p hp
        · rw [he, h2]; rfl
  · rintro ⟨ss, h1, rfl, rfl⟩
    induction ss generalizing o with
    | nil => rfl
    | cons p ss ih =>
      rw [List.map_cons, List.flatten_cons, parse_spells neg o p.1 p.2 _ (h1 p List.mem_cons_self), ih _ (fun q hq => h1 q (List.mem_cons_of_mem _ hq))]
      rfl

theorem fold_flags (xs : List Setting) (o : Opts) :
    ((xs.foldl Setting.on o).strict = true ↔ o.strict = true ∨ .strict ∈ xs) ∧
    ((xs.foldl Setting.on o).dryRun = true ↔ o.dryRun = true ∨ .dryRun ∈ xs) ∧
    ((xs.foldl Setting.on o).allowMissing = true ↔ o.allowMissing = true ∨ .allowMissing ∈ xs) := by
  induction xs generalizing o with
  | nil => simp
  | cons x xs ih =>
    rw [List.foldl_cons]
    obtain ⟨h1, h2, h3⟩ := ih (x.on o)
    rw [h1, h2, h3]
    cases x <;> simp [Setting.on]

/-! ### the claims -/

/-- **C154.**  The tool accepts exactly the command lines that spell settings one after the other, in any order, in full or abbreviated,
with the value in the next word or after an equals sign; the last setting of a kind counts. -/
theorem C154_accepted (neg : Text → Bool) (args : List Text) (o : Opts) :
    parse neg Opts.default args = some o ↔ ∃ ss : List (Setting × List Text), (∀ p ∈ ss, Spells neg p.1 p.2) ∧
      args = (ss.map Prod.snd).flatten ∧ o = (ss.map Prod.fst).foldl Setting.on ⟨[], [], false, false, false, "info".toList⟩ :=
  parse_iff neg _ o args

/-- **C154, the run.**  An accepted command line that names a readable configuration and an output directory makes the subset: not
strict unless asked, missing combinations are errors unless allowed. -/
theorem C154_run (P : Py) (order : List String) (neg : Text → Bool) (src : Source W) (conf : Text → ConfFile) (occupied : Text → Bool)
    (d : Disk W) (ss : List (Setting × List Text)) (hs : ∀ p ∈ ss, Spells neg p.1 p.2) (o : Opts)
    (ho : o = (ss.map Prod.fst).foldl Setting.on ⟨[], [], false, false, false, "info".toList⟩) (fs : List Filter)
    (hc : conf o.conf = .filters fs) (hout : o.outDir ≠ []) :
    ∃ strict fail dry, (strict = true ↔ .strict ∈ ss.map Prod.fst) ∧ (fail = false ↔ .allowMissing ∈ ss.map Prod.fst) ∧
      (dry = true ↔ .dryRun ∈ ss.map Prod.fst) ∧
      (main P order neg src conf occupied (ss.map Prod.snd).flatten d).2 =
        (subsetDb P order src fs o.outDir strict fail dry (occupied o.outDir) d).2 ∧
      ((main P order neg src conf occupied (ss.map Prod.snd).flatten d).1 = .done ↔
        (subsetDb P order src fs o.outDir strict fail dry (occupied o.outDir) d).1 = .ok ()) := by
  have hp := (C154_accepted neg _ o).2 ⟨ss, hs, rfl, ho⟩
  obtain ⟨h1, h2, h3⟩ := fold_flags (ss.map Prod.fst) ⟨[], [], false, false, false, "info".toList⟩
  rw [← ho] at h1 h2 h3
  refine ⟨o.strict, !o.allowMissing, o.dryRun, by simpa using h1, by simpa using h3, by simpa using h2, ?_, ?_⟩
  · unfold main
    rw [hp]
    simp only [hc, if_neg hout]
    cases subsetDb P order src fs o.outDir o.strict (!o.allowMissing) o.dryRun (occupied o.outDir) d with
    | mk r d1 => cases r <;> rfl
  · unfold main
    rw [hp]
    simp only [hc, if_neg hout]
    cases subsetDb P order src fs o.outDir o.strict (!o.allowMissing) o.dryRun (occupied o.outDir) d with
    | mk r d1 => cases r <;> simp

/-- **C154, how it ends.**  A message about the usage exactly when the command line is not accepted; otherwise it ends in a refusal (status 1)
exactly when there is no file at the path of the configuration or no output directory is given; it never succeeds without having
been given a configuration that can be read. -/
theorem C154_ends (P : Py) (order : List String) (neg : Text → Bool) (src : Source W) (conf : Text → ConfFile) (occupied : Text → Bool)
    (args : List Text) (d : Disk W) :
    ((main P order neg src conf occupied args d).1 = .usage ↔ ¬ ∃ ss : List (Setting × List Text), (∀ p ∈ ss, Spells neg p.1 p.2) ∧
      args = (ss.map Prod.snd).flatten) ∧
    ∀ ss : List (Setting × List Text), (∀ p ∈ ss, Spells neg p.1 p.2) → args = (ss.map Prod.snd).flatten →
      ∀ o, o = (ss.map Prod.fst).foldl Setting.on ⟨[], [], false, false, false, "info".toList⟩ →
      ((main P order neg src conf occupied args d).1 = .exit1 ↔ conf o.conf = .missing ∨ o.outDir = []) ∧
      ((main P order neg src conf occupied args d).1 = .done → ∃ fs, conf o.conf = .filters fs) := by
  have run : ∀ o, parse neg Opts.default args = some o →
      (main P order neg src conf occupied args d).1 ≠ .usage ∧
      ((main P order neg src conf occupied args d).1 = .exit1 ↔ conf o.conf = .missing ∨ o.outDir = []) ∧
      ((main P order neg src conf occupied args d).1 = .done → ∃ fs, conf o.conf = .filters fs) := by
    intro o hp
    unfold main
    rw [hp]
    simp only
    cases hc : conf o.conf with
    | missing => simp
    | unreadable =>
      by_cases ho : o.outDir = []
      · simp [ho]
      · simp [ho]
    | filters fs =>
      by_cases ho : o.outDir = []
      · simp [ho]
      · simp only [if_neg ho]
        cases subsetDb P order src fs o.outDir o.strict (!o.allowMissing) o.dryRun (occupied o.outDir) d with
        | mk r d1 => cases r <;> simp [ho]
  constructor
  · constructor
    · rintro h ⟨ss, hs, ha⟩
      exact (run _ ((C154_accepted neg args _).2 ⟨ss, hs, ha, rfl⟩)).1 h
    · intro h
      cases hp : parse neg Opts.default args with
      | none => unfold main; rw [hp]
      | some o =>
        obtain ⟨ss, hs, ha, _⟩ := (C154_accepted neg args o).1 hp
        exact absurd ⟨ss, hs, ha⟩ h
  · intro ss hs ha o ho
    exact (run o ((C154_accepted neg args o).2 ⟨ss, hs, ha, ho⟩)).2

/-- **C154, what is left alone.**  A file changes only if the command line is accepted, asks for no dry run, names a configuration that
can be read and an output directory, and, when strict, that directory is empty. -/
theorem C154_untouched (P : Py) (order : List String) (neg : Text → Bool) (src : Source W) (conf : Text → ConfFile) (occupied : Text → Bool)
    (args : List Text) (d : Disk W) (q : List Char) (hq : (main P order neg src conf occupied args d).2 q ≠ d q) :
    ∃ (ss : List (Setting × List Text)) (o : Opts), (∀ p ∈ ss, Spells neg p.1 p.2) ∧ args = (ss.map Prod.snd).flatten ∧
      o = (ss.map Prod.fst).foldl Setting.on ⟨[], [], false, false, false, "info".toList⟩ ∧
      .dryRun ∉ ss.map Prod.fst ∧ (∃ fs, conf o.conf = .filters fs) ∧ o.outDir ≠ [] ∧ (.strict ∈ ss.map Prod.fst → occupied o.outDir = false) := by
  unfold main at hq
  cases hp : parse neg Opts.default args with
  | none => rw [hp] at hq; exact absurd rfl hq
  | some o =>
    rw [hp] at hq
    obtain ⟨ss, hs, ha, ho⟩ := (C154_accepted neg args o).1 hp
    obtain ⟨h1, h2, h3⟩ := fold_flags (ss.map Prod.fst) ⟨[], [], false, false, false, "info".toList⟩
    rw [← ho] at h1 h2 h3
    simp only at hq
    cases hc : conf o.conf with
    | missing => rw [hc] at hq; exact absurd rfl hq
    | unreadable =>
      rw [hc] at hq
      simp only at hq
      split at hq <;> exact absurd rfl hq
    | filters fs =>
      rw [hc] at hq
      simp only at hq
      split at hq
      · exact absurd rfl hq
      · rename_i hout
        have hq' : (subsetDb P order src fs o.outDir o.strict (!o.allowMissing) o.dryRun (occupied o.outDir) d).2 q ≠ d q := by
          intro e
          apply hq
          cases hr : subsetDb P order src fs o.outDir o.strict (!o.allowMissing) o.dryRun (occupied o.outDir) d with
          | mk r d1 =>
            rw [hr] at e
            cases r <;> exact e
        obtain ⟨hd, hst, _⟩ := frame P order src fs o.outDir o.strict (!o.allowMissing) o.dryRun (occupied o.outDir) d q hq'
        refine ⟨ss, o, hs, ha, ho, ?_, ⟨fs, hc⟩, hout, ?_⟩
        · intro hm
          rw [h2.2 (.inr hm)] at hd
          cases hd
        · intro hm
          exact hst (h1.2 (.inr hm))

/-- **C154 refuted for directories that begin with a dash**: as a word of its own such a name is refused; after an equals sign it is not. -/
theorem C154_dash_refuted (neg : Text → Bool) (hn : neg "-out".toList = false) :
    parse neg Opts.default ["--conf".toList, "c".toList, "--out-dir".toList, "-out".toList] = none ∧
    parse neg Opts.default ["--conf".toList, "c".toList, "--out-dir=-out".toList] =
      some { Opts.default with conf := "c".toList, outDir := "-out".toList } := by
  have hb : ∀ k, Begins (name k) (name k) := by
    intro k
    refine ⟨List.prefix_rfl, ?_⟩
    cases k <;> decide
  have hv : Worth neg "c".toList := .inl (by decide +kernel)
  have h1 : ∀ rest, parse neg Opts.default ("--conf".toList :: "c".toList :: rest) = parse neg { Opts.default with conf := "c".toList } rest :=
    fun rest => parse_written neg _ _ .conf _ ["--conf".toList, "c".toList] rest (.apart _ (hb .conf) hv) rfl rfl
  rw [h1, h1]
  constructor
  · rw [parse, show classify neg "--out-dir".toList = .opt .outDir none from classify_begins neg (hb .outDir)]
    simp only [isFlag, Bool.false_eq_true, if_false]
    have : classify neg "-out".toList ≠ .value := by
      rw [ne_eq, classify_value]
      rintro (h | h | ⟨h | h, _, _⟩)
      · revert h; decide +kernel
      · revert h; decide +kernel
      · rw [hn] at h; cases h
      · revert h; decide +kernel
    rw [if_neg this]
  · exact parse_written neg _ _ .outDir "-out".toList ["--out-dir=-out".toList] [] (.joined _ (hb .outDir)) rfl rfl

/-! ### the hypotheses can be met -/

/-- No negative numbers. -/
def noNeg : Text → Bool := fun _ => false

/-- `C154_accepted`: abbreviations, both ways to give values, the last one counts. -/
example : parse noNeg Opts.default ["--co".toList, "a.yaml".toList, "--str".toList, "--out=x".toList, "--conf=b.yaml".toList] =
    some ⟨"b.yaml".toList, "x".toList, false, true, false, "info".toList⟩ := by decide +kernel

/-- `C154_accepted`: what is refused. -/
example : parse noNeg Opts.default ["--conf".toList] = none ∧ parse noNeg Opts.default ["--strict=1".toList] = none ∧
    parse noNeg Opts.default ["--log-level".toList, "all".toList] = none ∧ parse noNeg Opts.default ["extra".toList] = none ∧
    parse noNeg Opts.default ["--help".toList] = none ∧ parse noNeg Opts.default ["--unknown".toList] = none := by decide +kernel

/-- The configuration file `f` asks for one matrix; nothing else is there. -/
def oneConf : Text → ConfFile := fun p => if p = "f".toList then .filters [⟨orca (some (.int 2)), orca none, none⟩] else .missing

def strictLine : List (Setting × List Text) :=
  [(.conf "f".toList, ["--conf".toList, "f".toList]), (.outDir out, ["--out-dir=/s".toList]), (.strict, ["--strict".toList])]

theorem strict_spelled : ∀ p ∈ strictLine, Spells noNeg p.1 p.2 := by
  have hb : ∀ k, Begins (name k) (name k) := by
    intro k
    refine ⟨List.prefix_rfl, ?_⟩
    cases k <;> decide
  intro p hp
  simp only [strictLine, List.mem_cons, List.not_mem_nil, or_false] at hp
  rcases hp with rfl | rfl | rfl
  · exact .conf _ _ (.apart _ (hb .conf) (.inl (by decide +kernel)))
  · exact .outDir _ _ (.joined _ (hb .outDir))
  · exact .strict _ (hb .strict)

/-- `C154_ends`: without an output directory it ends in a refusal, with a word left over in a message about the usage. -/
example (P : Py) (order : List String) :
    (main P order noNeg twoSource oneConf (fun _ => false) ["--conf".toList, "f".toList] (fun _ => none)).1 = .exit1 ∧
    (main P order noNeg twoSource oneConf (fun _ => false) ["extra".toList] (fun _ => none)).1 = .usage := by
  constructor
  · obtain ⟨_, h⟩ := C154_ends P order noNeg twoSource oneConf (fun _ => false) ["--conf".toList, "f".toList] (fun _ => none)
    refine (h [(.conf "f".toList, ["--conf".toList, "f".toList])] (fun p hp => ?_) rfl _ rfl).1.2 (Or.inr rfl)
    exact strict_spelled p (by simp only [List.mem_singleton] at hp; subst hp; simp [strictLine])
  · have hp : parse noNeg Opts.default ["extra".toList] = none := by decide +kernel
    refine (C154_ends P order noNeg twoSource oneConf (fun _ => false) ["extra".toList] (fun _ => none)).1.2 ?_
    rintro ⟨ss, hs, ha⟩
    have := (C154_accepted noNeg _ _).2 ⟨ss, hs, ha, rfl⟩
    rw [hp] at this
    cases this

/-- `C154_run`, `C154_untouched`: the tool runs and writes the index. -/
example (P : Py) (order : List String) (ho : Enumerates order) :
    (main P order noNeg twoSource oneConf (fun _ => false) ["--conf".toList, "f".toList, "--out-dir=/s".toList, "--strict".toList] (fun _ => none)).1 = .done ∧
    ∃ ss : List (Setting × List Text),
      ["--conf".toList, "f".toList, "--out-dir=/s".toList, "--strict".toList] = (ss.map Prod.snd).flatten ∧ .dryRun ∉ ss.map Prod.fst := by
  obtain ⟨d', hd⟩ := two_done P order ho
  obtain ⟨strict, fail, dry, h1, h2, h3, h4, h5⟩ := C154_run P order noNeg twoSource oneConf (fun _ => false) (fun _ => none) strictLine
    strict_spelled _ rfl [⟨orca (some (.int 2)), orca none, none⟩] rfl (by decide +kernel)
  have e1 : strict = true := h1.2 (by simp [strictLine])
  have e2 : fail = true := by
    cases fail
    · have := h2.1 rfl; simp [strictLine] at this
    · rfl
  have e3 : dry = false := by
    cases dry
    · rfl
    · have := h3.1 rfl; simp [strictLine] at this
  subst e1; subst e2; subst e3
  have e4 : ((strictLine.map Prod.fst).foldl Setting.on ⟨[], [], false, false, false, "info".toList⟩).outDir = out := rfl
  rw [e4, hd] at h4 h5
  refine ⟨h5.2 rfl, ?_⟩
  obtain ⟨f', res, hf, _⟩ := C107_index_file P order twoSource _ out true true false _ d' twoFile two_nodup (two_load P) hd
  obtain ⟨ss, o, _, ha, _, hn, _⟩ := C154_untouched P order noNeg twoSource oneConf (fun _ => false) (strictLine.map Prod.snd).flatten (fun _ => none)
    (join out "index.json".toList) (by rw [h4]; simp only; rw [hf]; simp)
  exact ⟨ss, ha, hn⟩

end Verif.Index.SubsetCmd
