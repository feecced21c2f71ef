import Verif.Config.Boot

/-!
# C112 starting up
-/

namespace Verif.Config.Boot
open Verif.Config

/-- The documented choice of the file: the variable, if it is set and not empty, otherwise the file below the home directory. -/
def Chosen (P : Py) (env : Env) (path : List Char) : Prop :=
  (path ≠ [] ∧ env "EARTHKIT_REGRID_CONFIG_FILE".toList = some path) ∨
  ((env "EARTHKIT_REGRID_CONFIG_FILE".toList = none ∨ env "EARTHKIT_REGRID_CONFIG_FILE".toList = some []) ∧
    path = P.home ++ "/.config/earthkit/regrid/config.yaml".toList)

/-- What `SafeLoader` returned it can also read after it has been written. -/
def Readable (P : Py) (w : World) : Prop := ∀ p es, w.content p = some (.mapping es) → ∀ e ∈ es, safe P e.2 = true

/-- The directory of the file is there, or it can be made. -/
def Placed (w : World) (path : List Char) : Prop :=
  dirname path ≠ [] ∧ (w.dirs (dirname path) = true ∨ (w.content (dirname path)).isSome = true ∨ w.mayMake (dirname path) = true)

/-- A mapping whose keys are all text. -/
def AllText (es : List (Key × V)) : Prop := ∀ e ∈ es, ∃ k, e.1 = .text k

theorem chosen_iff (P : Py) (env : Env) (path : List Char) : Chosen P env path ↔ path = configFile P env := by
  unfold Chosen configFile fileVariable
  generalize env "EARTHKIT_REGRID_CONFIG_FILE".toList = o
  rcases o with _ | _ | ⟨c, t⟩
  · simp
  · simp
  · simp
    constructor
    · rintro ⟨_, h⟩; exact h.symm
    · rintro rfl; simp

theorem textKeys_iff (es : List (Key × V)) : textKeys es = true ↔ AllText es := by
  unfold textKeys AllText
  rw [List.all_eq_true]
  refine forall_congr' fun e => forall_congr' fun _ => ?_
  cases e.1 <;> simp

theorem overlay_text (P : Py) (f : File) :
    overlay P (f.map (fun e => (.text e.1, e.2))) = f.foldl (fun c e => Conf.set c e.1 e.2) (DEFAULTS P) := by
  unfold overlay
  rw [List.foldl_map]
  rfl

theorem textKeys_text (f : File) : textKeys (f.map (fun e => (Key.text e.1, e.2))) = true := by
  rw [textKeys_iff]
  intro e he
  obtain ⟨a, _, rfl⟩ := List.mem_map.1 he
  exact ⟨_, rfl⟩

/-- Reading a file with text keys is `load`. -/
theorem initConfig_encode (P : Py) (f : File) :
    initConfig P (some (encode P f)) = ((load P (some f)).1, true, (load P (some f)).2) := by
  unfold encode load
  by_cases h : f.all (fun e => safe P e.2) = true
  · simp only [h, if_true, initConfig, overlay_text, textKeys_text]
    rfl
  · simp only [h, initConfig]
    simp

theorem overlay_foldl (es : List (Key × V)) (c0 : Conf) (hn : (es.map Prod.fst).Nodup) (k : String) :
    (∀ v, (.text k, v) ∈ es → (es.foldl put c0) k = some v) ∧
    (.text k ∉ es.map Prod.fst → (es.foldl put c0) k = c0 k) := by
  induction es generalizing c0 with
  | nil => exact ⟨by simp, by simp⟩
  | cons e es ih =>
    obtain ⟨key, u⟩ := e
    simp only [List.map_cons, List.nodup_cons] at hn
    simp only [List.foldl_cons]
    obtain ⟨i1, i2⟩ := ih (put c0 (key, u)) hn.2
    constructor
    · intro v hv
      rcases List.mem_cons.1 hv with hv | hv
      · simp only [Prod.mk.injEq] at hv
        obtain ⟨rfl, rfl⟩ := hv
        rw [i2 hn.1]
        exact set_self _ _ _
      · exact i1 v hv
    · intro hk
      simp only [List.map_cons, List.mem_cons, not_or] at hk
      rw [i2 hk.2]
      cases key with
      | other n => rfl
      | text k' => exact set_other _ _ _ _ (fun h => hk.1 (by rw [h]))

/-! ### the disk -/

theorem ensureDir_content (w : World) (d : List Char) : (ensureDir w d).content = w.content := by
  unfold ensureDir; split
  · rfl
  · split <;> rfl

theorem ensureDir_mayWrite (w : World) (d : List Char) : (ensureDir w d).mayWrite = w.mayWrite := by
  unfold ensureDir; split
  · rfl
  · split <;> rfl

theorem saveConfig_other (P : Py) (path : List Char) (c : Conf) (w : World) (q : List Char) (h : q ≠ path) :
    (saveConfig P path c w).2.content q = w.content q := by
  unfold saveConfig; split
  · exact if_neg h
  · rfl

theorem saveConfig_umask (P : Py) (path : List Char) (c : Conf) (w : World) : (saveConfig P path c w).2.umask = w.umask := by
  unfold saveConfig; split <;> rfl

theorem saveConfig_ok (P : Py) (path : List Char) (c : Conf) (w : World) (h : w.mayWrite path = true) :
    (saveConfig P path c w).1 = true ∧ (saveConfig P path c w).2.content path = some (encode P (dump P c)) := by
  unfold saveConfig; rw [if_pos h]; exact ⟨rfl, if_pos rfl⟩

theorem saveConfig_no (P : Py) (path : List Char) (c : Conf) (w : World) (h : ¬w.mayWrite path = true) :
    saveConfig P path c w = (false, w) := by
  unfold saveConfig; rw [if_neg h]

/-- The items written when there is no file. -/
def firstConf (P : Py) (w : World) : Conf :=
  match w.content (oldFile P) with
  | some (.mapping es) => if textKeys es then overlay P es else DEFAULTS P
  | _ => DEFAULTS P

/-- The second half of `_init_config_file`. -/
def fill (P : Py) (path : List Char) (w : World) : World :=
  match migrate P path w with
  | (true, w) => w
  | (false, w) => (saveConfig P path (DEFAULTS P) w).2

theorem fill_eq (P : Py) (path : List Char) (w : World) :
    fill P path w = if w.mayWrite path = true then
      { w with content := fun p => if p = path then some (encode P (dump P (firstConf P w))) else w.content p } else w := by
  unfold fill migrate firstConf
  by_cases h : w.mayWrite path = true
  · cases w.content (oldFile P) with
    | none => simp [saveConfig, h]
    | some c =>
      cases c with
      | broken => simp [saveConfig, h]
      | plain => simp [saveConfig, h]
      | mapping es =>
        by_cases ht : textKeys es = true
        · simp [saveConfig, h, ht]
        · simp [saveConfig, h, ht]
  · cases w.content (oldFile P) with
    | none => simp [saveConfig, h]
    | some c =>
      cases c with
      | broken => simp [saveConfig, h]
      | plain => simp [saveConfig, h]
      | mapping es =>
        by_cases ht : textKeys es = true
        · simp [saveConfig, h, ht]
        · simp [saveConfig, h, ht]

theorem initConfigFile_eq (P : Py) (w : World) (path : List Char) (hp : path = configFile P w.env) :
    initConfigFile P w = (path, if (ensureDir w (dirname path)).there (dirname path) = true ∧ (ensureDir w (dirname path)).there path = false then
      fill P path (ensureDir w (dirname path)) else ensureDir w (dirname path)) := by
  unfold initConfigFile
  rw [← hp]
  simp only
  generalize ensureDir w (dirname path) = w1
  cases hd : w1.there (dirname path)
  · simp
  · cases hf : w1.there path
    · simp only [if_true, Bool.false_eq_true, if_false, and_self, fill]
      split <;> rename_i h <;> simp [h]
    · simp

theorem dirname_ne (p : List Char) (h : p.getLast? ≠ some '/') (hne : p ≠ []) : dirname p ≠ p := by
  intro he
  have hr : p.reverse ≠ [] := by simpa using hne
  obtain ⟨c, t, hct⟩ := List.exists_cons_of_ne_nil hr
  have hc : c ≠ '/' := by
    intro hc
    apply h
    rw [← List.head?_reverse, hct, hc]; rfl
  have hl : (p.reverse.dropWhile (· != '/')).length < p.length := by
    rw [hct, List.dropWhile_cons_of_pos (by simpa using hc)]
    have := (List.dropWhile_sublist (l := t) (p := (· != '/'))).length_le
    have h2 : p.length = t.length + 1 := by rw [← List.length_reverse, hct]; rfl
    omega
  have hd : (dirname p).length ≤ (p.reverse.dropWhile (· != '/')).length := by
    unfold dirname
    simp only
    split
    · simp
    · rw [List.length_reverse]
      have := (List.dropWhile_sublist (l := (p.reverse.dropWhile (· != '/')).reverse.reverse) (p := (· == '/'))).length_le
      simpa using this
  rw [he] at hd
  omega

theorem ensureDir_there (w : World) (path : List Char) (h : Placed w path) : (ensureDir w (dirname path)).there (dirname path) = true := by
  unfold ensureDir
  split
  · assumption
  · rename_i hn
    obtain ⟨h1, h2⟩ := h
    have h3 : w.mayMake (dirname path) = true := by
      unfold World.there at hn
      rcases h2 with h2 | h2 | h2
      · simp [h1, h2] at hn
      · simp [h1, h2] at hn
      · exact h2
    rw [if_pos ⟨h1, h3⟩]
    simp [World.there, h1]

theorem ensureDir_path (w : World) (path : List Char) (hl : path.getLast? ≠ some '/') (hc : w.content path = none) (hd : w.dirs path = false) :
    (ensureDir w (dirname path)).there path = false := by
  by_cases hne : path = []
  · subst hne; rfl
  unfold ensureDir
  split
  · simp [World.there, hc, hd]
  · split
    · simp [World.there, hc, hd, (dirname_ne path hl hne).symm]
    · simp [World.there, hc, hd]

theorem ensureDir_umask (w : World) (path : List Char) (h : Placed w path) : (ensureDir w (dirname path)).umask = w.umask := by
  unfold ensureDir
  split
  · rfl
  · rename_i hn
    obtain ⟨h1, h2⟩ := h
    split
    · rfl
    · rename_i h3
      unfold World.there at hn
      rcases h2 with h2 | h2 | h2
      · simp [h1, h2] at hn
      · simp [h1, h2] at hn
      · exact absurd ⟨h1, h2⟩ h3

theorem fill_umask (P : Py) (path : List Char) (w : World) : (fill P path w).umask = w.umask := by
  rw [fill_eq]; split <;> rfl

theorem fill_other (P : Py) (path : List Char) (w : World) (q : List Char) (h : q ≠ path) : (fill P path w).content q = w.content q := by
  rw [fill_eq]; split
  · exact if_neg h
  · rfl

/-- The disk when the file is about to be read. -/
def before (P : Py) (w : World) (path : List Char) : World :=
  if (ensureDir w (dirname path)).there (dirname path) = true ∧ (ensureDir w (dirname path)).there path = false then
    fill P path (ensureDir w (dirname path)) else ensureDir w (dirname path)

theorem before_umask (P : Py) (w : World) (path : List Char) (h : Placed w path) : (before P w path).umask = w.umask := by
  unfold before; split
  · rw [fill_umask, ensureDir_umask w path h]
  · exact ensureDir_umask w path h

theorem before_other (P : Py) (w : World) (path q : List Char) (h : q ≠ path) : (before P w path).content q = w.content q := by
  unfold before; split
  · rw [fill_other P path _ q h, ensureDir_content]
  · rw [ensureDir_content]

theorem before_there (P : Py) (w : World) (path : List Char) (hne : path ≠ []) (c : Content) (h : w.content path = some c) :
    before P w path = ensureDir w (dirname path) := by
  unfold before
  rw [if_neg]
  rintro ⟨_, h'⟩
  unfold World.there at h'
  rw [ensureDir_content, h] at h'
  simp [hne] at h'

theorem firstConf_ensureDir (P : Py) (w : World) (d : List Char) : firstConf P (ensureDir w d) = firstConf P w := by
  unfold firstConf; rw [ensureDir_content]

/-- The file that is read when there was none. -/
theorem before_missing (P : Py) (w : World) (path : List Char) (h : w.content path = none) :
    (before P w path).content path = none ∨ (before P w path).content path = some (encode P (dump P (firstConf P w))) := by
  unfold before; split
  · rw [fill_eq]
    split
    · right; simp only [if_true, firstConf_ensureDir]
    · left; rw [ensureDir_content]; exact h
  · left; rw [ensureDir_content]; exact h

theorem before_created (P : Py) (w : World) (path : List Char) (hl : path.getLast? ≠ some '/') (hd : w.dirs path = false)
    (h : w.content path = none) (hp : Placed w path) (hw : w.mayWrite path = true) :
    (before P w path).content path = some (encode P (dump P (firstConf P w))) := by
  unfold before
  rw [if_pos ⟨ensureDir_there w path hp, ensureDir_path w path hl h hd⟩, fill_eq, ensureDir_mayWrite, if_pos hw]
  simp only [if_true, firstConf_ensureDir]

theorem boot_eq (P : Py) (w : World) (path : List Char) (hp : Chosen P w.env path) :
    boot P w = if (initConfig P ((before P w path).content path)).2.1 = true then
      (.ok ⟨(initConfig P ((before P w path).content path)).1, path⟩,
        if (initConfig P ((before P w path).content path)).2.2 = true then
          (saveConfig P path (initConfig P ((before P w path).content path)).1 (before P w path)).2 else before P w path)
      else (.error .type, before P w path) := by
  unfold boot
  rw [initConfigFile_eq P w path ((chosen_iff P _ _).1 hp)]
  rfl

theorem chosen_ne (P : Py) (env : Env) (path : List Char) (hp : Chosen P env path) : path ≠ [] := by
  rcases hp with ⟨h, _⟩ | ⟨_, rfl⟩
  · exact h
  · simp

/-! ### the claims -/

/-- **C112, does it start.**  Importing the package raises exactly when the file was there and holds a mapping with a key that is not
text; then it raises TypeError. -/
theorem C112_refused_iff (P : Py) (w : World) (path : List Char) (hp : Chosen P w.env path) (e : Err) :
    (boot P w).1 = .error e ↔ e = .type ∧ ∃ es, w.content path = some (.mapping es) ∧ ¬AllText es := by
  rw [boot_eq P w path hp]
  have key : (initConfig P ((before P w path).content path)).2.1 = true ↔ ¬∃ es, w.content path = some (.mapping es) ∧ ¬AllText es := by
    cases hc : w.content path with
    | none =>
      rcases before_missing P w path hc with h | h
      · rw [h]; simp [initConfig]
      · rw [h, initConfig_encode]; simp
    | some c =>
      rw [before_there P w path (chosen_ne P _ _ hp) c hc, ensureDir_content, hc]
      cases c with
      | broken => simp [initConfig]
      | plain => simp [initConfig]
      | mapping es =>
        show textKeys es = true ↔ _
        rw [textKeys_iff]
        simp
  split
  · rename_i h
    rw [key] at h
    simp [h]
  · rename_i h
    rw [key, not_not] at h
    simp only [Except.error.injEq]
    exact ⟨fun h' => ⟨h'.symm, h⟩, fun h' => h'.1.symm⟩

/-- **C112, a file whose keys are text** (or that is missing, or cannot be read): the package starts with that file. -/
theorem C112_starts_partial (P : Py) (w : World) (path : List Char) (hp : Chosen P w.env path)
    (h : ∀ es, w.content path = some (.mapping es) → AllText es) : ∃ st, (boot P w).1 = .ok st ∧ st.path = path := by
  cases hb : (boot P w).1 with
  | error e =>
    obtain ⟨_, es, h1, h2⟩ := (C112_refused_iff P w path hp e).1 hb
    exact absurd (h es h1) h2
  | ok st =>
    refine ⟨st, rfl, ?_⟩
    rw [boot_eq P w path hp] at hb
    split at hb
    · simp only [Except.ok.injEq] at hb; rw [← hb]
    · cases hb

/-- **C112, the values of the file.**  Every entry of a readable file is in force as it stands, and every other option has its default. -/
theorem C112_values (P : Py) (w : World) (path : List Char) (hp : Chosen P w.env path) (es : List (Key × V))
    (hc : w.content path = some (.mapping es)) (hn : (es.map Prod.fst).Nodup) (st : Started) (h : (boot P w).1 = .ok st)
    (name : String) (r : Rule) (hr : ruleOf name = some r) (he : w.env (envName name) = none) :
    (∀ v, (.text name, v) ∈ es → InForce P r v (getConf P w.env st.conf name)) ∧
    (∀ u, .text name ∉ es.map Prod.fst → defaultReads P name = some u → getConf P w.env st.conf name = .ok u) := by
  rw [boot_eq P w path hp, before_there P w path (chosen_ne P _ _ hp) _ hc, ensureDir_content, hc] at h
  have hst : st.conf = overlay P es := by
    split at h
    · simp only [Except.ok.injEq] at h; rw [← h]; rfl
    · cases h
  obtain ⟨o1, o2⟩ := overlay_foldl es (DEFAULTS P) hn name
  constructor
  · intro v hv
    exact getConf_inForce P w.env _ name r hr he v v (by rw [hst]; exact o1 v hv) (Or.inl rfl)
  · intro u hu hd
    exact default_reads P w.env _ name r hr he (by rw [hst, ← defaultOf_eq]; exact o2 hu) u hd

/-- **C112, files that cannot be read.**  A file that is not yaml, or yaml but not a mapping, gives the defaults and is left alone. -/
theorem C112_unreadable (P : Py) (w : World) (path : List Char) (hp : Chosen P w.env path)
    (hc : w.content path = some .broken ∨ w.content path = some .plain) :
    ∃ st, (boot P w).1 = .ok st ∧ (boot P w).2.content = w.content ∧
      ∀ name r u, ruleOf name = some r → w.env (envName name) = none → defaultReads P name = some u →
        getConf P w.env st.conf name = .ok u := by
  rw [boot_eq P w path hp]
  have hi : initConfig P ((before P w path).content path) = (DEFAULTS P, true, false) ∧ (before P w path).content = w.content := by
    rcases hc with hc | hc <;> rw [before_there P w path (chosen_ne P _ _ hp) _ hc, ensureDir_content, hc] <;> exact ⟨rfl, rfl⟩
  rw [hi.1]
  refine ⟨⟨DEFAULTS P, path⟩, rfl, ?_, fun name r u hr he hd => ?_⟩
  · show (before P w path).content = _
    exact hi.2
  · exact default_reads P w.env _ name r hr he (defaultOf_eq P name) u hd

/-- **C112, the process.**  The mask for new files is what it was, when the directory is there or can be made. -/
theorem C112_umask_partial (P : Py) (w : World) (path : List Char) (hp : Chosen P w.env path) (h : Placed w path) :
    (boot P w).2.umask = w.umask := by
  rw [boot_eq P w path hp]
  split
  · show World.umask (if _ then _ else _) = _
    split
    · rw [saveConfig_umask, before_umask P w path h]
    · exact before_umask P w path h
  · exact before_umask P w path h

/-- **C112, other files** are never touched. -/
theorem C112_other_files (P : Py) (w : World) (path q : List Char) (hp : Chosen P w.env path) (hq : q ≠ path) :
    (boot P w).2.content q = w.content q := by
  rw [boot_eq P w path hp]
  split
  · show World.content (if _ then _ else _) q = _
    split
    · rw [saveConfig_other _ _ _ _ _ hq, before_other P w path q hq]
    · exact before_other P w path q hq
  · exact before_other P w path q hq

theorem overlay_version (P : Py) (es : List (Key × V)) (hn : (es.map Prod.fst).Nodup)
    (h : ∀ v, (.text "version", .str v) ∈ es → P.textLt v P.version = false) : (initConfig P (some (.mapping es))).2.2 = false := by
  show (match overlay P es "version" with | some (.str v) => P.textLt v P.version | _ => false) = false
  obtain ⟨o1, o2⟩ := overlay_foldl es (DEFAULTS P) hn "version"
  by_cases hk : Key.text "version" ∈ es.map Prod.fst
  · obtain ⟨⟨k, v⟩, hkv, hk'⟩ := List.mem_map.1 hk
    simp only at hk'
    subst hk'
    rw [show overlay P es "version" = some v from o1 v hkv]
    cases v <;> simp only
    exact h _ hkv
  · rw [show overlay P es "version" = none from o2 hk]

/-- **C112, the file itself** is left as it is unless an older release wrote it. -/
theorem C112_kept (P : Py) (w : World) (path : List Char) (hp : Chosen P w.env path) (es : List (Key × V))
    (hc : w.content path = some (.mapping es)) (hn : (es.map Prod.fst).Nodup)
    (hv : ∀ v, (.text "version", .str v) ∈ es → P.textLt v P.version = false) : (boot P w).2.content = w.content := by
  rw [boot_eq P w path hp, before_there P w path (chosen_ne P _ _ hp) _ hc, ensureDir_content, hc, overlay_version P es hn hv]
  split
  · exact ensureDir_content w _
  · exact ensureDir_content w _

theorem overlay_safe (P : Py) (es : List (Key × V)) (hs : ∀ e ∈ es, safe P e.2 = true) (name : String) (r : Rule) (v : V)
    (hr : ruleOf name = some r) (hv : overlay P es name = some v) : safe P v = true := by
  have hd : ∀ v, DEFAULTS P name = some v → safe P v = true := by
    intro v hv
    rw [defaultOf_eq] at hv
    unfold ruleOf at hr
    split at hr
    all_goals first | (cases hr; done) | skip
    all_goals simp only [defaultOf, Option.some.injEq] at hv
    all_goals subst hv
    all_goals rfl
  have : ∀ (es : List (Key × V)) (c : Conf), (∀ e ∈ es, safe P e.2 = true) → (∀ v, c name = some v → safe P v = true) →
      ∀ v, (es.foldl put c) name = some v → safe P v = true := by
    intro es
    induction es with
    | nil => intro c _ hc v hv; exact hc v hv
    | cons e es ih =>
      intro c he hc v hv
      refine ih (put c e) (fun x hx => he x (List.mem_cons_of_mem _ hx)) ?_ v hv
      intro u hu
      obtain ⟨k, x⟩ := e
      cases k with
      | other n => exact hc u hu
      | text k =>
        have hu : Conf.set c k x name = some u := hu
        unfold Conf.set at hu
        split at hu
        · simp only [Option.some.injEq] at hu; subst hu; exact he _ List.mem_cons_self
        · exact hc u hu
  exact this es _ hs hd v hv

theorem firstConf_safe (P : Py) (w : World) (hR : Readable P w) (name : String) (r : Rule) (v : V)
    (hr : ruleOf name = some r) (hv : firstConf P w name = some v) : safe P v = true := by
  have hdef : DEFAULTS P name = some v → safe P v = true := overlay_safe P [] (by simp) name r v hr
  unfold firstConf at hv
  cases hco : w.content (oldFile P) with
  | none => rw [hco] at hv; exact hdef hv
  | some x =>
    rw [hco] at hv
    cases x with
    | broken => exact hdef hv
    | plain => exact hdef hv
    | mapping es =>
      simp only at hv
      by_cases ht : textKeys es = true
      · rw [if_pos ht] at hv; exact overlay_safe P es (hR _ es hco) name r v hr hv
      · rw [if_neg ht] at hv; exact hdef hv

/-- **C112, the first start.**  Without a file the entries of the settings file of an older release are in force, and every other
option has its default; without either, all options have their defaults. The new file is there afterwards. -/
theorem C112_first_start_partial (P : Py) (w : World) (hR : Readable P w) (path : List Char) (hp : Chosen P w.env path)
    (hl : path.getLast? ≠ some '/') (hc : w.content path = none) (hd : w.dirs path = false) (hpl : Placed w path)
    (hw : w.mayWrite path = true) (st : Started) (h : (boot P w).1 = .ok st) :
    ((boot P w).2.content path).isSome = true ∧
    ∀ name r, ruleOf name = some r → w.env (envName name) = none →
      (∀ es, w.content (P.home ++ "/.earthkit_regrid/settings.yaml".toList) = some (.mapping es) → AllText es → (es.map Prod.fst).Nodup →
        (∀ v, (.text name, v) ∈ es → InForce P r v (getConf P w.env st.conf name)) ∧
        (∀ u, .text name ∉ es.map Prod.fst → defaultReads P name = some u → getConf P w.env st.conf name = .ok u)) ∧
      ((∀ es, w.content (P.home ++ "/.earthkit_regrid/settings.yaml".toList) = some (.mapping es) → ¬AllText es) →
        ∀ u, defaultReads P name = some u → getConf P w.env st.conf name = .ok u) := by
  have hb := before_created P w path hl hd hc hpl hw
  rw [boot_eq P w path hp, hb, initConfig_encode] at h ⊢
  simp only [if_true, Except.ok.injEq] at h ⊢
  subst h
  refine ⟨?_, ?_⟩
  · split
    · have hbw : (before P w path).mayWrite path = true := by
        unfold before
        split
        · rw [fill_eq]; split <;> (show (ensureDir w (dirname path)).mayWrite path = true) <;> rw [ensureDir_mayWrite, hw]
        · rw [ensureDir_mayWrite, hw]
      rw [(saveConfig_ok P path _ _ hbw).2]; rfl
    · rw [hb]; rfl
  · intro name r hr he
    have hfold := load_dump_any P (firstConf P w) (fun n r v => firstConf_safe P w hR n r v) name r hr
    have hdef : firstConf P w name = defaultOf P name → ∀ u, defaultReads P name = some u →
        getConf P w.env (load P (some (dump P (firstConf P w)))).1 name = .ok u := by
      intro hcd u hu
      obtain ⟨o, _, hd, _⟩ := option_rule P name r hr
      obtain ⟨x, hx, h⟩ := hfold o.default (hcd.trans hd)
      refine default_reads P w.env _ name r hr he ?_ u hu
      rw [hx]
      rcases h with h | ⟨_, _, h⟩
      · rw [h, hd]
      · exact h.symm
    refine ⟨fun es hes htext hn => ?_, fun hno => ?_⟩
    · have hfc : firstConf P w = overlay P es := by
        unfold firstConf oldFile
        rw [hes]
        simp [(textKeys_iff es).2 htext]
      obtain ⟨o1, o2⟩ := overlay_foldl es (DEFAULTS P) hn name
      refine ⟨fun v hv => ?_, fun u hu => hdef ?_ u⟩
      · obtain ⟨x, hx, h⟩ := hfold v (by rw [hfc]; exact o1 v hv)
        exact getConf_inForce P w.env _ name r hr he v x hx (h.imp id (fun h => ⟨h.1, h.2.1⟩))
      · rw [hfc, ← defaultOf_eq]; exact o2 hu
    · apply hdef
      have hfc : firstConf P w = DEFAULTS P := by
        unfold firstConf oldFile
        split
        · rename_i es hes
          rw [if_neg]
          rw [textKeys_iff]; exact hno es hes
        · rfl
      rw [hfc, defaultOf_eq]

/-! ### starting again -/

theorem load_dump_current (P : Py) (hirr : P.textLt P.version P.version = false) (c : Conf) : (load P (some (dump P c))).2 = false := by
  unfold load
  by_cases h : (dump P c).all (fun e => safe P e.2) = true
  · simp only [h, if_true]
    simp only [dump, List.foldl_append, List.foldl_cons, List.foldl_nil]
    rw [set_self]
    exact hirr
  · simp only [h]; rfl

theorem saveConfig_env (P : Py) (path : List Char) (c : Conf) (w : World) :
    (saveConfig P path c w).2.env = w.env ∧ (saveConfig P path c w).2.mayWrite = w.mayWrite := by
  unfold saveConfig; split <;> exact ⟨rfl, rfl⟩

theorem ensureDir_env (w : World) (d : List Char) : (ensureDir w d).env = w.env := by
  unfold ensureDir; split
  · rfl
  · split <;> rfl

theorem before_env (P : Py) (w : World) (path : List Char) : (before P w path).env = w.env ∧ (before P w path).mayWrite = w.mayWrite := by
  unfold before; split
  · rw [fill_eq]; split <;> exact ⟨ensureDir_env w _, ensureDir_mayWrite w _⟩
  · exact ⟨ensureDir_env w _, ensureDir_mayWrite w _⟩

theorem boot_env (P : Py) (w : World) (path : List Char) (hp : Chosen P w.env path) :
    (boot P w).2.env = w.env ∧ (boot P w).2.mayWrite = w.mayWrite := by
  rw [boot_eq P w path hp]
  split
  · simp only
    split
    · rw [(saveConfig_env P _ _ _).1, (saveConfig_env P _ _ _).2]; exact before_env P w path
    · exact before_env P w path
  · exact before_env P w path

theorem ensureDir_idem (w : World) (d : List Char) : ensureDir (ensureDir w d) d = ensureDir w d := by
  by_cases h1 : w.there d = true
  · rw [show ensureDir w d = w from if_pos h1, show ensureDir w d = w from if_pos h1]
  · by_cases h2 : d ≠ [] ∧ w.mayMake d = true
    · have e : ensureDir w d = { w with dirs := fun p => p = d || w.dirs p } := by unfold ensureDir; rw [if_neg h1, if_pos h2]
      rw [e]
      unfold ensureDir
      rw [if_pos]
      simp [World.there, h2.1]
    · have e : ensureDir w d = { w with umask := 0o077 } := by unfold ensureDir; rw [if_neg h1, if_neg h2]
      have h1' : ¬({ w with umask := 0o077 } : World).there d = true := h1
      have h2' : ¬(d ≠ [] ∧ ({ w with umask := 0o077 } : World).mayMake d = true) := h2
      rw [e]
      unfold ensureDir
      rw [if_neg h1', if_neg h2']

/-- **C112, starting again.**  A second start finds every option as the first one left it (a flag up to what python takes for the same
value) and changes no file. -/
theorem C112_again (P : Py) (hirr : P.textLt P.version P.version = false) (w : World) (hR : Readable P w) (path : List Char)
    (hp : Chosen P w.env path) (st : Started) (h : (boot P w).1 = .ok st) :
    ∃ st', (boot P (boot P w).2).1 = .ok st' ∧ st'.path = st.path ∧ (boot P (boot P w).2).2.content = (boot P w).2.content ∧
      ∀ name r v, ruleOf name = some r → st.conf name = some v →
        ∃ u, st'.conf name = some u ∧ (u = v ∨ r = .flag ∧ SameValue v u) := by
  have henv := boot_env P w path hp
  have hp' : Chosen P (boot P w).2.env path := by rw [henv.1]; exact hp
  have hne := chosen_ne P _ _ hp
  -- the second start reads a file that is already there and need not be rewritten
  have second : ∀ f c, (boot P w).2.content path = some f → initConfig P (some f) = (c, true, false) →
      boot P (boot P w).2 = (.ok ⟨c, path⟩, ensureDir (boot P w).2 (dirname path)) := by
    intro f c hf hi
    rw [boot_eq P _ path hp', before_there P _ path hne f hf, ensureDir_content, hf, hi]
    simp
  have hst : st.path = path := by
    rw [boot_eq P w path hp] at h
    split at h
    · simp only [Except.ok.injEq] at h; rw [← h]
    · cases h
  cases hc : w.content path with
  | some f =>
    have hbt := before_there P w path hne f hc
    have hb := boot_eq P w path hp
    rw [hbt, ensureDir_content, hc] at hb
    have htrue : (initConfig P (some f)).2.1 = true := by
      rw [hb] at h
      split at h
      · assumption
      · cases h
    rw [if_pos htrue] at hb
    have hconf : st.conf = (initConfig P (some f)).1 := by
      rw [hb] at h
      simp only [Except.ok.injEq] at h; rw [← h]
    by_cases hs : (initConfig P (some f)).2.2 = true ∧ w.mayWrite path = true
    · -- rewritten
      rw [if_pos hs.1] at hb
      have hw2 : (boot P w).2.content path = some (encode P (dump P (initConfig P (some f)).1)) := by
        rw [hb]
        exact (saveConfig_ok P path _ _ (by rw [ensureDir_mayWrite]; exact hs.2)).2
      have hi := initConfig_encode P (dump P (initConfig P (some f)).1)
      rw [load_dump_current P hirr] at hi
      have h2 := second _ _ hw2 hi
      refine ⟨⟨_, path⟩, by rw [h2], hst.symm, by rw [h2]; exact ensureDir_content _ _, fun name r v hr hv => ?_⟩
      have hsafe : ∀ name r v, ruleOf name = some r → (initConfig P (some f)).1 name = some v → safe P v = true := by
        intro name r v hr hv
        cases f with
        | broken => exact overlay_safe P [] (by simp) name r v hr hv
        | plain => exact overlay_safe P [] (by simp) name r v hr hv
        | mapping es => exact overlay_safe P es (hR path es hc) name r v hr hv
      obtain ⟨u, hu, h⟩ := load_dump_any P _ hsafe name r hr v (by rw [← hconf]; exact hv)
      exact ⟨u, hu, h.imp id (fun h => ⟨h.1, h.2.1⟩)⟩
    · have hw2 : (boot P w).2.content = w.content := by
        rw [hb]
        show World.content (if _ then _ else _) = _
        split
        · rename_i h1
          rw [saveConfig_no _ _ _ _ (by rw [ensureDir_mayWrite]; exact fun h2 => hs ⟨h1, h2⟩)]
          exact ensureDir_content _ _
        · exact ensureDir_content _ _
      have h2 := boot_eq P (boot P w).2 path hp'
      rw [before_there P _ path hne f (by rw [hw2, hc]), ensureDir_content, hw2, hc, if_pos htrue] at h2
      refine ⟨⟨(initConfig P (some f)).1, path⟩, by rw [h2], hst.symm, ?_, fun name r v _ hv => ⟨v, by rw [← hconf]; exact hv, Or.inl rfl⟩⟩
      rw [h2]
      show World.content (if _ then _ else _) = _
      split
      · rename_i h1
        rw [saveConfig_no _ _ _ _ (by rw [ensureDir_mayWrite, henv.2]; exact fun h2 => hs ⟨h1, h2⟩)]
        exact ensureDir_content _ _
      · exact ensureDir_content _ _
  | none =>
    rcases before_missing P w path hc with hb | hb
    · -- no file could be made
      have hi : initConfig P (none : Option Content) = (DEFAULTS P, true, false) := rfl
      have h1 : boot P w = (.ok ⟨DEFAULTS P, path⟩, before P w path) := by
        rw [boot_eq P w path hp, hb, hi]; simp
      have hbe : before P w path = ensureDir w (dirname path) := by
        unfold before at hb ⊢
        split
        · rename_i hcond
          rw [if_pos hcond, fill_eq] at hb
          rw [fill_eq]
          split
          · rename_i hw
            rw [if_pos hw] at hb
            simp at hb
          · rfl
        · rfl
      have hbb : before P (before P w path) path = before P w path := by
        have : before P (ensureDir w (dirname path)) path = before P w path := by
          unfold before
          rw [ensureDir_idem]
        rw [hbe, this, hbe]
      have h2 : boot P (boot P w).2 = (.ok ⟨DEFAULTS P, path⟩, before P w path) := by
        rw [boot_eq P _ path hp', h1, hbb, hb, hi]; simp
      rw [h1] at h
      simp only [Except.ok.injEq] at h
      refine ⟨⟨DEFAULTS P, path⟩, by rw [h2], hst.symm, by rw [h2, h1], fun name r v _ hv => ⟨v, by rw [← h] at hv; exact hv, Or.inl rfl⟩⟩
    · have hi := initConfig_encode P (dump P (firstConf P w))
      rw [load_dump_current P hirr] at hi
      have h1 : boot P w = (.ok ⟨(load P (some (dump P (firstConf P w)))).1, path⟩, before P w path) := by
        rw [boot_eq P w path hp, hb, hi]; simp
      have h2 := second _ _ (by rw [h1]; exact hb) hi
      rw [h1] at h
      simp only [Except.ok.injEq] at h
      exact ⟨⟨_, path⟩, by rw [h2], hst.symm, by rw [h2]; exact ensureDir_content _ _,
        fun name r v _ hv => ⟨v, by rw [← h] at hv; exact hv, Or.inl rfl⟩⟩

/-! ### what is not so -/

/-- A machine with one configuration file, named by the variable ... -/
def theVariable (path : List Char) : Env := fun v => if v = "EARTHKIT_REGRID_CONFIG_FILE".toList then some path else none

/-- ... and nothing else but perhaps an old settings file. -/
def oneFile (path : List Char) (c : Option Content) (old : Option Content) : World where
  env := theVariable path
  content := fun p => if p = path then c else if p = oldFile py then old else none
  dirs := fun p => p = ['/']
  mayMake := fun _ => true
  mayWrite := fun _ => true
  umask := 0o022

theorem oneFile_env (path : List Char) (c old : Option Content) : (oneFile path c old).env = theVariable path := rfl

theorem oneFile_chosen (path : List Char) (c old : Option Content) (h : path ≠ []) : Chosen py (oneFile path c old).env path :=
  Or.inl ⟨h, by rw [oneFile_env]; unfold theVariable; rw [if_pos rfl]⟩

/-- **C112 refuted: a file with a numeric key.**  The package cannot be imported. -/
theorem C112_numeric_key_refuted : ∃ w, Chosen py w.env "/c".toList ∧
    w.content "/c".toList = some (.mapping [(.text "cache-policy", .str "off".toList), (.other 1, .bool true)]) ∧
    (boot py w).1 = .error .type := by
  refine ⟨oneFile "/c".toList (some (.mapping [(.text "cache-policy", .str "off".toList), (.other 1, .bool true)])) none,
    oneFile_chosen _ _ _ (by decide), rfl, ?_⟩
  refine (C112_refused_iff py _ "/c".toList (oneFile_chosen _ _ _ (by decide)) .type).2 ⟨rfl, _, rfl, ?_⟩
  intro h
  obtain ⟨k, hk⟩ := h (.other 1, .bool true) (by simp)
  cases hk

/-- **C112 refuted: a bare file name.**  With `EARTHKIT_REGRID_CONFIG_FILE=c.yaml` and no such file, none is made and the process is left
with the mask 077: files it makes later cannot be read by others. -/
theorem C112_bare_name_refuted : ∃ w, Chosen py w.env "c.yaml".toList ∧ (∀ p, w.mayMake p = true) ∧ (∀ p, w.mayWrite p = true) ∧
    w.umask = 0o022 ∧ (boot py w).2.umask = 0o077 ∧ (boot py w).2.content "c.yaml".toList = none := by
  refine ⟨oneFile "c.yaml".toList none none, oneFile_chosen _ _ _ (by decide), fun _ => rfl, fun _ => rfl, rfl, ?_, ?_⟩ <;> decide +kernel

/-- **C112 refuted: a rewritten file.**  Starting with a file of an older release drops its entries that are no options. -/
theorem C112_dropped_refuted : ∃ w es, Chosen py w.env "/c".toList ∧ w.content "/c".toList = some (.mapping es) ∧
    (.text "note", .int 7) ∈ es ∧
    ∃ es', (boot py w).2.content "/c".toList = some (.mapping es') ∧ ∀ v, (.text "note", v) ∉ es' := by
  refine ⟨oneFile "/c".toList (some (.mapping [(.text "version", .str "0.3".toList), (.text "note", .int 7)])) none, _,
    oneFile_chosen _ _ _ (by decide), rfl, by simp, [(.text "version", .str "0.4".toList)], ?_, by simp⟩
  rfl

/-- **C112 refuted: old settings and a file that cannot be written.**  The settings of the older release are not in force. -/
theorem C112_old_lost_refuted : ∃ w st, Chosen py w.env "/c".toList ∧ w.content "/c".toList = none ∧
    w.content (py.home ++ "/.earthkit_regrid/settings.yaml".toList) = some (.mapping [(.text "cache-policy", .str "off".toList)]) ∧
    (boot py w).1 = .ok st ∧ getConf py w.env st.conf "cache-policy" = .ok (.str "user".toList) := by
  refine ⟨{ oneFile "/c".toList none (some (.mapping [(.text "cache-policy", .str "off".toList)])) with mayWrite := fun _ => false },
    ⟨DEFAULTS py, "/c".toList⟩, oneFile_chosen _ none (some (.mapping [(.text "cache-policy", .str "off".toList)])) (by decide), rfl, rfl, rfl, ?_⟩
  decide +kernel

/-! ### the model of `Model.start` -/

/-- The disk of `Model.start`: files of entries with text keys; the directory of the configuration file is there. -/
def worldOf (P : Py) (path : List Char) (env : Env) (files : String → Option File) (umask : Nat) : World where
  env := env
  content := fun p => (files (String.ofList p)).map (encode P)
  dirs := fun p => p = dirname path
  mayMake := fun _ => true
  mayWrite := fun _ => true
  umask := umask

theorem firstConf_worldOf (P : Py) (path : List Char) (env : Env) (files : String → Option File) (u : Nat) :
    firstConf P (worldOf P path env files u) =
      match files (String.ofList (oldFile P)) with
      | some es => if es.all (fun e => safe P e.2) then es.foldl (fun c e => Conf.set c e.1 e.2) (DEFAULTS P) else DEFAULTS P
      | none => DEFAULTS P := by
  unfold firstConf
  show (match (files (String.ofList (oldFile P))).map (encode P) with
    | some (.mapping es) => if textKeys es then overlay P es else DEFAULTS P
    | _ => DEFAULTS P) = _
  cases files (String.ofList (oldFile P)) with
  | none => rfl
  | some es =>
    simp only [Option.map_some, encode]
    by_cases h : es.all (fun e => safe P e.2) = true
    · simp only [h, if_true, textKeys_text, overlay_text]
    · simp [h]

/-- On the disks of `Model.start` (to which C22, C77 and C101 apply) starting up is `Model.start`. -/
theorem C112_same_start (P : Py) (path : List Char) (env : Env) (files : String → Option File) (u : Nat) (hp : Chosen P env path)
    (hl : path.getLast? ≠ some '/') (hd : dirname path ≠ []) :
    (boot P (worldOf P path env files u)).1 =
      .ok ⟨(start P (String.ofList path) (String.ofList (oldFile P)) env files).root.conf, path⟩ ∧
    ∀ q, (boot P (worldOf P path env files u)).2.content q =
      ((start P (String.ofList path) (String.ofList (oldFile P)) env files).files (String.ofList q)).map (encode P) := by
  have hne := chosen_ne P _ _ hp
  have hpl : Placed (worldOf P path env files u) path := ⟨hd, Or.inl (by simp [worldOf])⟩
  have hdp : (worldOf P path env files u).dirs path = false := by
    simpa [worldOf] using (dirname_ne path hl hne).symm
  -- the file that is read
  have hfile : (before P (worldOf P path env files u) path).content =
      fun q => (initFiles P (String.ofList path) (String.ofList (oldFile P)) files (String.ofList q)).map (encode P) := by
    funext q
    cases hf : files (String.ofList path) with
    | some f =>
      rw [before_there P _ path hne (encode P f) (by show (files _).map _ = _; rw [hf]; rfl), ensureDir_content]
      simp only [initFiles, hf]
      rfl
    | none =>
      by_cases hq : q = path
      · subst hq
        rw [before_created P _ q hl hdp (by show (files _).map _ = _; rw [hf]; rfl) hpl rfl, firstConf_worldOf]
        simp only [initFiles, hf, if_true, Option.map_some]
        rfl
      · rw [before_other P _ path q hq]
        have hq' : String.ofList q ≠ String.ofList path := fun h => hq (by simpa using congrArg String.toList h)
        simp only [initFiles, hf, hq', if_false]
        rfl
  have hsome : ∃ f, initFiles P (String.ofList path) (String.ofList (oldFile P)) files (String.ofList path) = some f := by
    unfold initFiles
    cases hf : files (String.ofList path) with
    | some f => exact ⟨f, hf⟩
    | none => exact ⟨_, if_pos rfl⟩
  obtain ⟨f, hf⟩ := hsome
  have hb := boot_eq P (worldOf P path env files u) path hp
  have hbp : (before P (worldOf P path env files u) path).content path = some (encode P f) := by rw [hfile]; simp only [hf, Option.map_some]
  rw [hbp, initConfig_encode] at hb
  simp only [if_true] at hb
  have hmw : (before P (worldOf P path env files u) path).mayWrite path = true := by rw [(before_env P _ path).2]; rfl
  have hstart : start P (String.ofList path) (String.ofList (oldFile P)) env files =
      (let s : St := ⟨⟨(load P (some f)).1, some (String.ofList path)⟩, [], [], true, env,
          initFiles P (String.ofList path) (String.ofList (oldFile P)) files, fun _ => true, [], 0⟩
       if (load P (some f)).2 then saveCfg P s.root s else s) := by
    unfold start
    simp only [hf]
  rw [hb, hstart]
  simp only
  by_cases hs : (load P (some f)).2 = true
  · simp only [hs, if_true]
    refine ⟨rfl, fun q => ?_⟩
    by_cases hq : q = path
    · subst hq
      rw [(saveConfig_ok P q _ _ hmw).2]
      simp [saveCfg]
    · have hq' : String.ofList q ≠ String.ofList path := fun h => hq (by simpa using congrArg String.toList h)
      rw [saveConfig_other P path _ _ q hq, hfile]
      simp [saveCfg, hq']
  · simp only [hs]
    refine ⟨rfl, fun q => ?_⟩
    show (before P _ path).content q = _
    rw [hfile]
    rfl

/-! ### the hypotheses can be met -/

/-- A readable file with entries that are text (and one that is no option), in a directory that has to be made. -/
def someFile : List (Key × V) := [(.text "cache-policy", .str "off".toList), (.text "note", .int 7)]

theorem someFile_ok : Chosen py (oneFile "/d/c".toList (some (.mapping someFile)) none).env "/d/c".toList ∧ AllText someFile ∧
    (someFile.map Prod.fst).Nodup ∧ Placed (oneFile "/d/c".toList (some (.mapping someFile)) none) "/d/c".toList ∧
    "/d/c".toList.getLast? ≠ some '/' ∧ py.textLt py.version py.version = false := by
  refine ⟨oneFile_chosen _ _ _ (by decide), ?_, by decide, ⟨by decide, Or.inr (Or.inr rfl)⟩, by decide, by decide⟩
  intro e he
  simp only [someFile, List.mem_cons, List.not_mem_nil, or_false] at he
  rcases he with rfl | rfl <;> exact ⟨_, rfl⟩

example : ∃ st, (boot py (oneFile "/d/c".toList (some (.mapping someFile)) none)).1 = .ok st ∧
    getConf py (fun _ => none) st.conf "cache-policy" = .ok (.str "off".toList) := by
  refine ⟨⟨overlay py someFile, "/d/c".toList⟩, rfl, ?_⟩
  decide +kernel

theorem someFile_readable : Readable py (oneFile "/d/c".toList (some (.mapping someFile)) none) := by
  intro p es h e he
  simp only [oneFile] at h
  split at h
  · simp only [Option.some.injEq, Content.mapping.injEq] at h
    subst h
    simp only [someFile, List.mem_cons, List.not_mem_nil, or_false] at he
    rcases he with rfl | rfl <;> rfl
  · split at h <;> cases h

/-- **C112** The directory that is made is the one the file is in. -/
theorem C112_directory (d name : List Char) (hn : '/' ∉ name) (hd : d ≠ []) (hl : d.getLast? ≠ some '/') :
    dirname (d ++ '/' :: name) = d ∧ dirname ('/' :: name) = ['/'] ∧ dirname name = [] := by
  have hdrop : ∀ x : List Char, (x ++ name).reverse.dropWhile (· != '/') = x.reverse.dropWhile (· != '/') := by
    intro x
    rw [List.reverse_append, List.dropWhile_append_of_pos]
    intro c hc
    have : c ≠ '/' := by rintro rfl; exact hn (by simpa using hc)
    simpa using this
  have h1 : ((d ++ '/' :: name).reverse.dropWhile (· != '/')).reverse = d ++ ['/'] := by
    rw [show d ++ '/' :: name = (d ++ ['/']) ++ name by simp, hdrop]
    simp
  have h2 : (('/' :: name).reverse.dropWhile (· != '/')).reverse = ['/'] := by
    rw [show '/' :: name = ['/'] ++ name by simp, hdrop]
    rfl
  have h3 : (name.reverse.dropWhile (· != '/')).reverse = [] := by
    have := hdrop []
    rw [List.nil_append] at this
    rw [this]
    rfl
  obtain ⟨e, c, rfl⟩ : ∃ e c, d = e ++ [c] := ⟨d.dropLast, d.getLast hd, (List.dropLast_append_getLast hd).symm⟩
  have hc : c ≠ '/' := by rintro rfl; simp at hl
  refine ⟨?_, ?_, ?_⟩
  · unfold dirname
    rw [h1]
    simp [hc]
  · unfold dirname
    rw [h2]
    rfl
  · unfold dirname
    rw [h3]
    rfl

example : dirname "/home/u/.config/earthkit/regrid/config.yaml".toList = "/home/u/.config/earthkit/regrid".toList ∧
    dirname "c.yaml".toList = [] ∧ dirname "/c".toList = "/".toList := by decide

/-- The machine with this file only. -/
def usual : World := oneFile "/d/c".toList (some (.mapping someFile)) none

/-- The machine without the file, with old settings. -/
def firstTime : World := oneFile "/d/c".toList none (some (.mapping someFile))

theorem usual_starts : (boot py usual).1 = .ok ⟨overlay py someFile, "/d/c".toList⟩ := rfl

/-- `C112_refused_iff`, `C112_starts_partial` -/
example : (∀ e, (boot py usual).1 ≠ .error e) ∧ ∃ st, (boot py usual).1 = .ok st ∧ st.path = "/d/c".toList := by
  refine ⟨fun e h => ?_, C112_starts_partial py usual "/d/c".toList someFile_ok.1 ?_⟩
  · obtain ⟨_, es, h1, h2⟩ := (C112_refused_iff py usual "/d/c".toList someFile_ok.1 e).1 h
    cases h1
    exact h2 someFile_ok.2.1
  · intro es h
    cases h
    exact someFile_ok.2.1

/-- `C112_values` -/
example : getConf py usual.env (overlay py someFile) "cache-policy" = .ok (.str "off".toList) ∧
    getConf py usual.env (overlay py someFile) "url-download-timeout" = .ok (.int 30) :=
  ⟨(C112_values py usual "/d/c".toList someFile_ok.1 someFile rfl someFile_ok.2.2.1 _ usual_starts "cache-policy" _ rfl (by decide +kernel)).1
      (.str "off".toList) (by simp [someFile]),
    (C112_values py usual "/d/c".toList someFile_ok.1 someFile rfl someFile_ok.2.2.1 _ usual_starts "url-download-timeout" _ rfl (by decide +kernel)).2
      _ (by decide) rfl⟩

/-- `C112_unreadable` -/
example : ∃ st, (boot py (oneFile "/d/c".toList (some .broken) none)).1 = .ok st ∧
    getConf py (oneFile "/d/c".toList (some .broken) none).env st.conf "cache-policy" = .ok (.str "user".toList) := by
  obtain ⟨st, h1, _, h3⟩ := C112_unreadable py (oneFile "/d/c".toList (some .broken) none) "/d/c".toList (oneFile_chosen _ _ _ (by decide)) (.inl rfl)
  exact ⟨st, h1, h3 "cache-policy" _ _ rfl (by decide +kernel) rfl⟩

/-- `C112_umask_partial`, `C112_other_files` -/
example : (boot py firstTime).2.umask = 0o022 ∧ (boot py firstTime).2.content (oldFile py) = some (.mapping someFile) :=
  ⟨C112_umask_partial py firstTime "/d/c".toList (oneFile_chosen _ _ _ (by decide)) ⟨by decide, .inr (.inr rfl)⟩,
    C112_other_files py firstTime "/d/c".toList (oldFile py) (oneFile_chosen _ _ _ (by decide)) (by decide +kernel)⟩

/-- `C112_kept` -/
example : (boot py usual).2.content = usual.content :=
  C112_kept py usual "/d/c".toList someFile_ok.1 someFile rfl someFile_ok.2.2.1 (by simp [someFile])

theorem firstTime_readable : Readable py firstTime := by
  intro p es h e he
  simp only [firstTime, oneFile] at h
  split at h
  · cases h
  · split at h
    · simp only [Option.some.injEq, Content.mapping.injEq] at h
      subst h
      simp only [someFile, List.mem_cons, List.not_mem_nil, or_false] at he
      rcases he with rfl | rfl <;> rfl
    · cases h

/-- `C112_first_start_partial` -/
example : ∃ st, (boot py firstTime).1 = .ok st ∧ ((boot py firstTime).2.content "/d/c".toList).isSome = true ∧
    getConf py firstTime.env st.conf "cache-policy" = .ok (.str "off".toList) := by
  obtain ⟨st, h, _⟩ := C112_starts_partial py firstTime "/d/c".toList (oneFile_chosen _ _ _ (by decide)) (fun es he => by cases he)
  obtain ⟨h1, h2⟩ := C112_first_start_partial py firstTime firstTime_readable "/d/c".toList (oneFile_chosen _ _ _ (by decide)) (by decide) rfl
    (by decide +kernel) ⟨by decide, .inr (.inr rfl)⟩ rfl st h
  exact ⟨st, h, h1, ((h2 "cache-policy" _ rfl (by decide +kernel)).1 someFile rfl someFile_ok.2.1 someFile_ok.2.2.1).1 _ (by simp [someFile])⟩

/-- `C112_again` -/
example : ∃ st', (boot py (boot py usual).2).1 = .ok st' ∧ st'.path = "/d/c".toList := by
  obtain ⟨st', h1, h2, _⟩ := C112_again py someFile_ok.2.2.2.2.2 usual someFile_readable "/d/c".toList someFile_ok.1 _ usual_starts
  exact ⟨st', h1, h2⟩

/-- `C112_same_start` -/
example : (boot py (worldOf py "/d/c".toList (theVariable "/d/c".toList) (fun p => if p = "/d/c" then some [("cache-policy", .str "off".toList)] else none) 0)).1 =
    .ok ⟨(start py (String.ofList "/d/c".toList) (String.ofList (oldFile py)) (theVariable "/d/c".toList)
      (fun p => if p = "/d/c" then some [("cache-policy", .str "off".toList)] else none)).root.conf, "/d/c".toList⟩ :=
  (C112_same_start py "/d/c".toList (theVariable "/d/c".toList) _ 0 (.inl ⟨by decide, by decide +kernel⟩) (by decide) (by decide)).1

end Verif.Config.Boot
