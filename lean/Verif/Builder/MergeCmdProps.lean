import Verif.Builder.MergeCmd
import Verif.Builder.MergeToolProps
import Verif.Index.SubsetCmdProps

/-!
# C155: the command line of the merging tool means what its options say
-/

namespace Verif.Builder.MergeCmd
open Verif.Builder.MergeTool
open Verif.Index (join)
open Verif.Index.SubsetCmd (Text cutEq cutEq_none cutEq_some cutEq_back whole Begins)

/-! ### specification -/

/-- What can be asked for. -/
inductive Setting where
  | mode (m : Mode)
  | inputDir (path : Text)
  | outputDir (path : Text)
  | dryRun

/-- Later settings replace earlier ones. -/
def Setting.on (o : Opts) : Setting → Opts
  | .mode m => { o with mode := m }
  | .inputDir p => { o with inputDir := p }
  | .outputDir p => { o with outputDir := p }
  | .dryRun => { o with dryRun := true }

/-- All option strings with two dashes. -/
def longOptions : List Text :=
  ["--help".toList, "--mode".toList, "--input-dir".toList, "--output-dir".toList, "--dry-run".toList]

/-- What can stand as the value of an option in a word of its own: anything that does not begin with a dash, the dash alone, and what
begins with a dash but begins no option and is a negative number or has a space. -/
def Worth (neg : Text → Bool) (v : Text) : Prop :=
  v.head? ≠ some '-' ∨ v = ['-'] ∨
    ((neg v = true ∨ ' ' ∈ v) ∧ ¬ ['-', 'h'] <+: v ∧ (['-', '-'] <+: v → ∀ f ∈ longOptions, ¬ (v.takeWhile (· != '=')) <+: f))

/-- The ways to write an option with a value: two words, or one with an equals sign. -/
inductive Written (neg : Text → Bool) (full v : Text) : List Text → Prop where
  | apart (w : Text) (hw : Begins w full) (hv : Worth neg v) : Written neg full v [w, v]
  | joined (w : Text) (hw : Begins w full) : Written neg full v [w ++ '=' :: v]

/-- The ways to write a setting. -/
inductive Spells (neg : Text → Bool) : Setting → List Text → Prop where
  | useLocal (ts : List Text) (h : Written neg "--mode".toList "local".toList ts) : Spells neg (.mode .local_) ts
  | useSystem (ts : List Text) (h : Written neg "--mode".toList "system".toList ts) : Spells neg (.mode .system) ts
  | inputDir (v : Text) (ts : List Text) (h : Written neg "--input-dir".toList v ts) : Spells neg (.inputDir v) ts
  | outputDir (v : Text) (ts : List Text) (h : Written neg "--output-dir".toList v ts) : Spells neg (.outputDir v) ts
  | dryRun (w : Text) (h : Begins w "--dry-run".toList) : Spells neg .dryRun [w]

/-! ### lemmas -/

theorem found_begins {w : Text} {k : Opt} (h : Begins w (name k)) : found w = [k] ∧ '=' ∉ w ∧ ['-', '-'].isPrefixOf w = true ∧
    w.head? = some '-' ∧ w ≠ ['-'] := by
  have hall : ∀ k ∈ ALL, ∀ w ∈ (name k).inits, 3 ≤ w.length → found w = [k] ∧ '=' ∉ w ∧ ['-', '-'].isPrefixOf w = true ∧
    w.head? = some '-' ∧ w ≠ ['-'] := by decide +kernel
  exact hall k (by cases k <;> decide) w ((List.mem_inits _ _).2 h.1) h.2

theorem found_prefix {pre : Text} {k : Opt} : k ∈ found pre ↔ pre <+: name k := by
  unfold found
  rw [List.mem_filter, List.isPrefixOf_iff_prefix]
  exact ⟨fun h => h.2, fun h => ⟨by cases k <;> decide, h⟩⟩

theorem found_nil {pre : Text} : found pre = [] ↔ ∀ f ∈ longOptions, ¬ pre <+: f := by
  have hn : ∀ f, f ∈ longOptions ↔ ∃ k, f = name k := by
    have e : longOptions = ALL.map name := by decide +kernel
    intro f
    rw [e, List.mem_map]
    exact ⟨fun ⟨k, _, hk⟩ => ⟨k, hk.symm⟩, fun ⟨k, hk⟩ => ⟨k, by cases k <;> decide, hk.symm⟩⟩
  rw [List.eq_nil_iff_forall_not_mem]
  constructor
  · intro h f hf hp
    obtain ⟨k, rfl⟩ := (hn f).1 hf
    exact h k (found_prefix.2 hp)
  · intro h k hk
    exact h _ ((hn _).2 ⟨k, rfl⟩) (found_prefix.1 hk)

theorem classify_begins (neg : Text → Bool) {w : Text} {k : Opt} (h : Begins w (name k)) : classify neg w = .opt k none := by
  obtain ⟨h1, h2, h3, h4, h5⟩ := found_begins h
  unfold classify
  rw [if_neg (by simp [h4, h5]), if_pos h3, cutEq_none h2, h1]

theorem classify_joined (neg : Text → Bool) {w v : Text} {k : Opt} (h : Begins w (name k)) : classify neg (w ++ '=' :: v) = .opt k (some v) := by
  obtain ⟨h1, h2, h3, h4, h5⟩ := found_begins h
  unfold classify
  have h6 : (w ++ '=' :: v).head? = some '-' := by
    cases w with
    | nil => cases h4
    | cons c w => exact h4
  have h7 : w ++ '=' :: v ≠ ['-'] := by
    intro e
    have := congrArg List.length e
    have h8 := h.2
    simp at this
    omega
  have h9 : ['-', '-'].isPrefixOf (w ++ '=' :: v) = true := by
    rw [List.isPrefixOf_iff_prefix] at h3 ⊢
    exact h3.trans (List.prefix_append _ _)
  rw [if_neg (by simp [h6, h7]), if_pos h9, cutEq_some h2, h1]

/-- Two dashes alone begin all options. -/
theorem found_one {pre : Text} {k : Opt} (h : found pre = [k]) : 3 ≤ pre.length := by
  by_contra hlt
  have hk : pre <+: name k := found_prefix.1 (by rw [h]; exact List.mem_singleton.2 rfl)
  have hall : ∀ k ∈ ALL, ∀ w ∈ (name k).inits, ¬ 3 ≤ w.length → found w ≠ [k] := by decide +kernel
  exact hall k (by cases k <;> decide) pre ((List.mem_inits _ _).2 hk) hlt h

theorem classify_opt (neg : Text → Bool) {t : Text} {k : Opt} {ex : Option Text} (hk : k ≠ .help) (h : classify neg t = .opt k ex) :
    ∃ w, Begins w (name k) ∧ t = whole w ex := by
  unfold classify leftOver at h
  split at h
  · cases h
  · split at h
    · split at h
      · rename_i k' hf
        cases h
        exact ⟨(cutEq t).1, ⟨found_prefix.1 (by rw [hf]; exact List.mem_singleton.2 rfl), found_one hf⟩, cutEq_back t⟩
      · split at h <;> cases h
      · cases h
    · split at h
      · cases h; exact absurd rfl hk
      · split at h <;> cases h

theorem classify_value (neg : Text → Bool) (t : Text) : classify neg t = .value ↔ Worth neg t := by
  unfold classify Worth leftOver
  by_cases h1 : t.head? ≠ some '-' ∨ t = ['-']
  · rw [if_pos h1]
    refine ⟨fun _ => ?_, fun _ => rfl⟩
    rcases h1 with h1 | h1
    · exact .inl h1
    · exact .inr (.inl h1)
  · rw [if_neg h1]
    rw [not_or] at h1
    by_cases h2 : ['-', '-'].isPrefixOf t = true
    · rw [if_pos h2]
      have h2' := List.isPrefixOf_iff_prefix.1 h2
      have h3 : ¬ ['-', 'h'] <+: t := by
        rintro ⟨a, rfl⟩
        obtain ⟨b, hb⟩ := h2'
        simp at hb
      cases hf : found (cutEq t).1 with
      | nil =>
        have hf' := found_nil.1 hf
        have : (cutEq t).1 = t.takeWhile (· != '=') := rfl
        rw [this] at hf'
        constructor
        · intro h
          simp only at h
          split at h
          · rename_i hn; exact .inr (.inr ⟨hn, h3, fun _ => hf'⟩)
          · cases h
        · rintro (h | h | ⟨hn, _, _⟩)
          · exact absurd h h1.1
          · exact absurd h h1.2
          · simp only; rw [if_pos hn]
      | cons k ks =>
        have hbad : ¬ Worth neg t := by
          rintro (h | h | ⟨_, _, h⟩)
          · exact h1.1 h
          · exact h1.2 h
          · have := found_nil.2 (h h2')
            have e : (cutEq t).1 = t.takeWhile (· != '=') := rfl
            rw [← e, hf] at this
            cases this
        unfold Worth at hbad
        cases ks with
        | nil => exact ⟨fun h => (by cases h), fun h => absurd h hbad⟩
        | cons k' ks => exact ⟨fun h => (by cases h), fun h => absurd h hbad⟩
    · rw [if_neg h2]
      rw [List.isPrefixOf_iff_prefix] at h2
      by_cases h3 : ['-', 'h'].isPrefixOf t = true
      · rw [if_pos h3]
        rw [List.isPrefixOf_iff_prefix] at h3
        constructor
        · intro h; cases h
        · rintro (h | h | ⟨_, h, _⟩)
          · exact absurd h h1.1
          · exact absurd h h1.2
          · exact absurd h3 h
      · rw [if_neg h3]
        rw [List.isPrefixOf_iff_prefix] at h3
        constructor
        · intro h
          split at h
          · rename_i hn; exact .inr (.inr ⟨hn, h3, fun h => absurd h h2⟩)
          · cases h
        · rintro (h | h | ⟨hn, _, _⟩)
          · exact absurd h h1.1
          · exact absurd h h1.2
          · rw [if_pos hn]

theorem parse_flag (neg : Text → Bool) (o o' : Opts) (k : Opt) (w : Text) (rest : List Text) (h : Begins w (name k)) (hf : isFlag k = true)
    (hr : raise o k = some o') : parse neg o (w :: rest) = parse neg o' rest := by
  rw [parse, classify_begins neg h]
  simp only [hf, if_true, hr]

theorem parse_written (neg : Text → Bool) (o o' : Opts) (k : Opt) (v : Text) (ts rest : List Text) (h : Written neg (name k) v ts)
    (hf : isFlag k = false) (hs : store o k v = some o') : parse neg o (ts ++ rest) = parse neg o' rest := by
  cases h with
  | apart w hw hv =>
    show parse neg o (w :: v :: rest) = _
    rw [parse, classify_begins neg hw]
    simp only [hf, Bool.false_eq_true, if_false, (classify_value neg v).2 hv, if_true, hs]
  | joined w hw =>
    show parse neg o ((w ++ '=' :: v) :: rest) = _
    rw [parse, classify_joined neg hw]
    simp only [hs]

theorem parse_spells (neg : Text → Bool) (o : Opts) (x : Setting) (ts rest : List Text) (h : Spells neg x ts) :
    parse neg o (ts ++ rest) = parse neg (x.on o) rest := by
  cases h with
  | useLocal ts h => exact parse_written neg o _ .mode _ ts rest h rfl rfl
  | useSystem ts h => exact parse_written neg o _ .mode _ ts rest h rfl rfl
  | inputDir v ts h => exact parse_written neg o _ .inputDir v ts rest h rfl rfl
  | outputDir v ts h => exact parse_written neg o _ .outputDir v ts rest h rfl rfl
  | dryRun w h => exact parse_flag neg o _ .dryRun w rest h rfl rfl

theorem spells_store (neg : Text → Bool) (o o' : Opts) (k : Opt) (v : Text) (ts : List Text) (h : Written neg (name k) v ts)
    (hs : store o k v = some o') : ∃ x, Spells neg x ts ∧ o' = x.on o := by
  cases k with
  | inputDir => cases hs; exact ⟨.inputDir v, .inputDir v ts h, rfl⟩
  | outputDir => cases hs; exact ⟨.outputDir v, .outputDir v ts h, rfl⟩
  | mode =>
    simp only [store, modeOf] at hs
    by_cases h1 : v = "local".toList
    · rw [if_pos h1] at hs; cases hs; subst h1; exact ⟨.mode .local_, .useLocal ts h, rfl⟩
    · rw [if_neg h1] at hs
      by_cases h2 : v = "system".toList
      · rw [if_pos h2] at hs; cases hs; subst h2; exact ⟨.mode .system, .useSystem ts h, rfl⟩
      · rw [if_neg h2] at hs; cases hs
  | help => cases hs
  | dryRun => cases hs

theorem spells_raise (neg : Text → Bool) (o o' : Opts) (k : Opt) (w : Text) (h : Begins w (name k))
    (hs : raise o k = some o') : ∃ x, Spells neg x [w] ∧ o' = x.on o := by
  cases k with
  | dryRun => cases hs; exact ⟨_, .dryRun w h, rfl⟩
  | _ => cases hs

/-- A list of settings, each with the words that spell it. -/
abbrev Line := List (Setting × List Text)

theorem parse_first (neg : Text → Bool) (o o' : Opts) (w : Text) (ws : List Text) (h : parse neg o (w :: ws) = some o') :
    ∃ x ts rest, Spells neg x ts ∧ w :: ws = ts ++ rest ∧ rest.length ≤ ws.length ∧ parse neg (x.on o) rest = some o' := by
  rw [parse] at h
  cases hc : classify neg w with
  | value => rw [hc] at h; cases h
  | bad => rw [hc] at h; cases h
  | opt k ex =>
    rw [hc] at h
    by_cases hk : k = .help
    · subst hk
      exfalso
      cases ex with
      | some v => cases h
      | none =>
        cases ws with
        | nil => cases h
        | cons v ws =>
          simp only [isFlag, Bool.false_eq_true, if_false, store] at h
          split at h <;> cases h
    · obtain ⟨b, hb, hw⟩ := classify_opt neg hk hc
      cases ex with
      | some v =>
        simp only at h
        cases hs : store o k v with
        | none => rw [hs] at h; cases h
        | some o1 =>
          rw [hs] at h
          obtain ⟨x, hx, rfl⟩ := spells_store neg o o1 k v [b ++ '=' :: v] (.joined b hb) hs
          exact ⟨x, _, ws, hx, by rw [hw]; rfl, le_refl _, h⟩
      | none =>
        simp only at h
        have hw : w = b := hw
        subst hw
        cases hf : isFlag k with
        | true =>
          rw [hf, if_pos rfl] at h
          cases hs : raise o k with
          | none => rw [hs] at h; cases h
          | some o1 =>
            rw [hs] at h
            obtain ⟨x, hx, rfl⟩ := spells_raise neg o o1 k w hb hs
            exact ⟨x, _, ws, hx, rfl, le_refl _, h⟩
        | false =>
          rw [hf, if_neg (by simp)] at h
          cases ws with
          | nil => cases h
          | cons v ws =>
            simp only at h
            split at h
            · rename_i hv
              cases hs : store o k v with
              | none => rw [hs] at h; cases h
              | some o1 =>
                rw [hs] at h
                obtain ⟨x, hx, rfl⟩ := spells_store neg o o1 k v [w, v] (.apart w hb ((classify_value neg v).1 hv)) hs
                exact ⟨x, _, ws, hx, rfl, by simp, h⟩
            · cases h

theorem parse_iff (neg : Text → Bool) (o o' : Opts) (args : List Text) :
    parse neg o args = some o' ↔ ∃ ss : Line, (∀ p ∈ ss, Spells neg p.1 p.2) ∧ args = (ss.map Prod.snd).flatten ∧
      o' = (ss.map Prod.fst).foldl Setting.on o := by
  constructor
  · intro h
    generalize hn : args.length = n
    induction n using Nat.strong_induction_on generalizing args o with
    | _ n ih =>
      cases args with
      | nil => cases h; exact ⟨[], by simp, rfl, rfl⟩
      | cons w ws =>
        obtain ⟨x, ts, rest, hx, he, hl, hp⟩ := parse_first neg o o' w ws h
        obtain ⟨ss, h1, h2, h3⟩ := ih rest.length (by rw [← hn, List.length_cons]; omega) (x.on o) rest hp rfl
        refine ⟨(x, ts) :: ss, ?_, ?_, h3⟩
        · intro p hp
          rcases List.mem_cons.1 hp with rfl | hp
          · exact hx
          · exact h1 p hp
        · rw [he, h2]; rfl
  · rintro ⟨ss, h1, rfl, rfl⟩
    induction ss generalizing o with
    | nil => rfl
    | cons p ss ih =>
      rw [List.map_cons, List.flatten_cons, parse_spells neg o p.1 p.2 _ (h1 p List.mem_cons_self), ih _ (fun q hq => h1 q (List.mem_cons_of_mem _ hq))]
      rfl

theorem fold_dry (xs : List Setting) (o : Opts) :
    (xs.foldl Setting.on o).dryRun = true ↔ o.dryRun = true ∨ .dryRun ∈ xs := by
  induction xs generalizing o with
  | nil => simp
  | cons x xs ih =>
    rw [List.foldl_cons, ih (x.on o)]
    cases x <;> simp [Setting.on]

/-! ### the claims -/

/-- **C155.**  The tool accepts exactly the command lines that spell settings one after the other, in any order, in full or abbreviated,
with the value in the next word or after an equals sign; the last setting of a kind counts; the mode is local unless asked. -/
theorem C155_accepted (neg : Text → Bool) (args : List Text) (o : Opts) :
    parse neg Opts.default args = some o ↔ ∃ ss : List (Setting × List Text), (∀ p ∈ ss, Spells neg p.1 p.2) ∧
      args = (ss.map Prod.snd).flatten ∧ o = (ss.map Prod.fst).foldl Setting.on ⟨.local_, [], [], false⟩ :=
  parse_iff neg _ o args

/-- **C155, the run.**  An accepted command line merges what it names, with a dry run exactly if one is asked for anywhere. -/
theorem C155_run (neg : Text → Bool) (reply : Option Content) (d : Disk) (ss : List (Setting × List Text))
    (hs : ∀ p ∈ ss, Spells neg p.1 p.2) (o : Opts) (ho : o = (ss.map Prod.fst).foldl Setting.on ⟨.local_, [], [], false⟩) :
    ∃ dry, (dry = true ↔ .dryRun ∈ ss.map Prod.fst) ∧
      (run neg reply (ss.map Prod.snd).flatten d).2 = (MergeTool.main o.mode o.inputDir o.outputDir dry reply d).2 ∧
      (run neg reply (ss.map Prod.snd).flatten d).1 ≠ .usage ∧
      ((run neg reply (ss.map Prod.snd).flatten d).1 = .done ↔
        (MergeTool.main o.mode o.inputDir o.outputDir dry reply d).1 = .ok ()) := by
  have hp := (C155_accepted neg _ o).2 ⟨ss, hs, rfl, ho⟩
  have h2 := fold_dry (ss.map Prod.fst) ⟨.local_, [], [], false⟩
  rw [← ho] at h2
  refine ⟨o.dryRun, by simpa using h2, ?_, ?_, ?_⟩ <;>
  · unfold run
    rw [hp]
    simp only
    cases MergeTool.main o.mode o.inputDir o.outputDir o.dryRun reply d with
    | mk r d1 => cases r <;> simp

/-- **C155, what is left alone.**  A file changes only if the command line is accepted and names an input directory that is there and an
output directory; then it is the index there, unless a dry run is asked for, or in mode `system` one of the two downloaded files. -/
theorem C155_untouched (neg : Text → Bool) (reply : Option Content) (args : List Text) (d : Disk) (q : List Char)
    (hq : (run neg reply args d).2.files q ≠ d.files q) :
    ∃ (ss : List (Setting × List Text)) (o : Opts), (∀ p ∈ ss, Spells neg p.1 p.2) ∧ args = (ss.map Prod.snd).flatten ∧
      o = (ss.map Prod.fst).foldl Setting.on ⟨.local_, [], [], false⟩ ∧ o.inputDir ∈ d.dirs ∧ o.outputDir ≠ [] ∧
      (q = join o.outputDir "index.json".toList ∧ .dryRun ∉ ss.map Prod.fst ∨
        o.mode = .system ∧ (q = join o.outputDir "index.json.remote".toList ∨ q = join o.outputDir "index.json.remote".toList ++ ".gz".toList)) := by
  unfold run at hq
  cases hp : parse neg Opts.default args with
  | none => rw [hp] at hq; exact absurd rfl hq
  | some o =>
    rw [hp] at hq
    obtain ⟨ss, hs, ha, ho⟩ := (C155_accepted neg args o).1 hp
    have h2 := fold_dry (ss.map Prod.fst) ⟨.local_, [], [], false⟩
    rw [← ho] at h2
    have hq' : (MergeTool.main o.mode o.inputDir o.outputDir o.dryRun reply d).2.files q ≠ d.files q := by
      intro e
      apply hq
      cases hr : MergeTool.main o.mode o.inputDir o.outputDir o.dryRun reply d with
      | mk r d1 =>
        rw [hr] at e
        cases r <;> simpa [hr] using e
    refine ⟨ss, o, hs, ha, ho, ?_, ?_, ?_⟩
    · by_contra h
      unfold MergeTool.main at hq'
      rw [if_pos h] at hq'
      exact hq' rfl
    · intro h
      unfold MergeTool.main at hq'
      split at hq'
      · exact hq' rfl
      · exact hq' rfl
    · rcases (C125_written o.mode o.inputDir o.outputDir o.dryRun reply d).2 q hq' with h | ⟨h, h'⟩
      · refine .inl ⟨h, fun hm => ?_⟩
        have hd := h2.2 (.inr hm)
        rw [hd, h] at hq'
        exact hq' (C125_index o.mode o.inputDir o.outputDir reply d)
      · exact .inr ⟨h, h'⟩

/-- **C155, other command lines.**  They end with the usage text, and the disk is as it was. -/
theorem C155_refused (neg : Text → Bool) (reply : Option Content) (args : List Text) (d : Disk)
    (h : ¬ ∃ ss : List (Setting × List Text), (∀ p ∈ ss, Spells neg p.1 p.2) ∧ args = (ss.map Prod.snd).flatten) :
    run neg reply args d = (.usage, d) := by
  unfold run
  cases hp : parse neg Opts.default args with
  | none => rfl
  | some o =>
    obtain ⟨ss, hs, ha, _⟩ := (C155_accepted neg args o).1 hp
    exact absurd ⟨ss, hs, ha⟩ h

/-- **C155 refuted for directories that begin with a dash**: as a word of its own such a name is refused; after an equals sign it is not. -/
theorem C155_dash_refuted (neg : Text → Bool) (hn : neg "-out".toList = false) :
    parse neg Opts.default ["--input-dir".toList, "c".toList, "--output-dir".toList, "-out".toList] = none ∧
    parse neg Opts.default ["--input-dir".toList, "c".toList, "--output-dir=-out".toList] =
      some { Opts.default with inputDir := "c".toList, outputDir := "-out".toList } := by
  have hb : ∀ k, Begins (name k) (name k) := by
    intro k
    refine ⟨List.prefix_rfl, ?_⟩
    cases k <;> decide
  have hv : Worth neg "c".toList := .inl (by decide +kernel)
  have h1 : ∀ rest, parse neg Opts.default ("--input-dir".toList :: "c".toList :: rest) =
      parse neg { Opts.default with inputDir := "c".toList } rest :=
    fun rest => parse_written neg _ _ .inputDir _ ["--input-dir".toList, "c".toList] rest (.apart _ (hb .inputDir) hv) rfl rfl
  rw [h1, h1]
  constructor
  · rw [parse, show classify neg "--output-dir".toList = .opt .outputDir none from classify_begins neg (hb .outputDir)]
    simp only [isFlag, Bool.false_eq_true, if_false]
    have : classify neg "-out".toList ≠ .value := by
      rw [ne_eq, classify_value]
      rintro (h | h | ⟨h | h, _, _⟩)
      · revert h; decide +kernel
      · revert h; decide +kernel
      · rw [hn] at h; cases h
      · revert h; decide +kernel
    rw [if_neg this]
  · exact parse_written neg _ _ .outputDir "-out".toList ["--output-dir=-out".toList] [] (.joined _ (hb .outputDir)) rfl rfl

/-! ### the hypotheses can be met -/

/-- No negative numbers. -/
def noNeg : Text → Bool := fun _ => false

/-- `C155_accepted`: abbreviations, both ways to give values, the last one counts. -/
example : parse noNeg Opts.default ["--in".toList, "a".toList, "--dry".toList, "--mode=system".toList, "--o=x".toList, "--input-dir=b".toList] =
    some ⟨.system, "b".toList, "x".toList, true⟩ := by decide +kernel

/-- `C155_accepted`: what is refused. -/
example : parse noNeg Opts.default ["--mode".toList] = none ∧ parse noNeg Opts.default ["--dry-run=1".toList] = none ∧
    parse noNeg Opts.default ["--mode".toList, "Local".toList] = none ∧ parse noNeg Opts.default ["extra".toList] = none ∧
    parse noNeg Opts.default ["-h".toList] = none ∧ parse noNeg Opts.default ["--unknown".toList] = none := by decide +kernel

def demoLine : List (Setting × List Text) :=
  [(.inputDir Demo.inp, ["--input-dir".toList, Demo.inp]), (.outputDir Demo.out, ["--output-dir".toList ++ '=' :: Demo.out])]

theorem demo_spelled : ∀ p ∈ demoLine, Spells noNeg p.1 p.2 := by
  have hb : ∀ k, Begins (name k) (name k) := by
    intro k
    refine ⟨List.prefix_rfl, ?_⟩
    cases k <;> decide
  intro p hp
  simp only [demoLine, List.mem_cons, List.not_mem_nil, or_false] at hp
  rcases hp with rfl | rfl
  · exact .inputDir _ _ (.apart _ (hb .inputDir) (.inl (by decide +kernel)))
  · exact .outputDir _ _ (.joined _ (hb .outputDir))

/-- `C155_refused`: a word that is no option. -/
example : ¬ ∃ ss : List (Setting × List Text), (∀ p ∈ ss, Spells noNeg p.1 p.2) ∧ ["--mode=local".toList, "extra".toList] = (ss.map Prod.snd).flatten := by
  rintro ⟨ss, h1, h2⟩
  have := (C155_accepted noNeg _ _).2 ⟨ss, h1, h2, rfl⟩
  have hn : parse noNeg Opts.default ["--mode=local".toList, "extra".toList] = none := by decide +kernel
  rw [hn] at this
  cases this

/-- `C155_run`: the tool runs to the end. -/
example : (run noNeg none (demoLine.map Prod.snd).flatten Demo.disk).1 = .done := by
  obtain ⟨dry, hd, _, _, h⟩ := C155_run noNeg none Demo.disk demoLine demo_spelled _ rfl
  have : dry = false := by
    cases dry
    · rfl
    · have := hd.1 rfl; simp [demoLine] at this
  subst this
  exact h.2 (by rfl)

/-- `C155_untouched`: and writes the index. -/
example : (run noNeg none (demoLine.map Prod.snd).flatten Demo.disk).2.files (join Demo.out "index.json".toList) ≠
    Demo.disk.files (join Demo.out "index.json".toList) := by
  obtain ⟨dry, hd, h, _, _⟩ := C155_run noNeg none Demo.disk demoLine demo_spelled _ rfl
  have : dry = false := by
    cases dry
    · rfl
    · have := hd.1 rfl; simp [demoLine] at this
  subst this
  rw [h]
  intro hc
  cases hc

end Verif.Builder.MergeCmd
