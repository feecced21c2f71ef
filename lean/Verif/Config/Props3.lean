import Verif.Config.Props2

/-! Properties C21–C25, C77, C78. -/

namespace Verif.Config
open Verif.Humanize

/-! ### C21: reset -/

/-- What the options read as by default, in documented terms. -/
def defaultReads (P : Py) : String → Option V
  | "user-cache-directory" => some (.str (P.home ++ "/.cache/earthkit-regrid".toList))
  | "temporary-cache-directory-root" => some .none
  | "temporary-directory-root" => some .none
  | "cache-policy" => some (.str "user".toList)
  | "maximum-cache-size" => some (.int (5 * 1024 * 1024 * 1024))
  | "maximum-cache-disk-usage" => some .none
  | "url-download-timeout" => some (.int 30)
  | "check-out-of-date-urls" => some (.bool false)
  | "download-out-of-date-urls" => some (.bool false)
  | "maximum-weights-memory-cache-size" => some (.int (500 * 1024 * 1024))
  | "weights-memory-cache-policy" => some (.str "largest".toList)
  | "weights-memory-cache-strict-mode" => some (.bool false)
  | _ => none

theorem default_reads (P : Py) (env : Env) (c : Conf) (name : String) (r : Rule) (hr : ruleOf name = some r)
    (he : env (envName name) = none) (hc : c name = defaultOf P name) (w : V) (hw : defaultReads P name = some w) :
    getConf P env c name = .ok w := by
  obtain ⟨v, w', h1, h2, h3, _⟩ := defaults_typed P name r hr
  rw [defaultOf_eq] at h1
  have hww : w' = w := by
    have hnum : ∀ u b t n, numberOf P u t = some (.int n) → (Rule.number u b).apply P (.str t) = some (.int n) := by
      intro u b t n h
      show (if V.str t = .none ∧ b = true then some V.none else numberOf P u (P.strOf (.str t))) = _
      rw [if_neg (by simp), P.strOf_str, h]
    unfold ruleOf at hr
    split at hr
    all_goals first | (cases hr; done) | skip
    all_goals injection hr with hr
    all_goals subst hr
    all_goals simp only [defaultOf, Option.some.injEq] at h1
    all_goals subst h1
    all_goals simp only [defaultReads, Option.some.injEq] at hw
    all_goals subst hw
    · rw [show Rule.text.apply P _ = some (.str (P.strOf _)) from rfl, P.strOf_str] at h2; exact (Option.some.inj h2).symm
    · exact (Option.some.inj h2).symm
    · exact (Option.some.inj h2).symm
    · have : (Rule.oneOf ["off".toList, "temporary".toList, "user".toList]).apply P (.str "user".toList) = some (.str "user".toList) := by
        show (if P.strOf (.str "user".toList) ∈ _ then some (V.str (P.strOf (.str "user".toList))) else none) = _
        rw [P.strOf_str]; simp
      exact Option.some.inj (h2.symm.trans this)
    · exact Option.some.inj (h2.symm.trans (hnum _ _ _ _ (numberOf_5GB P)))
    · exact (Option.some.inj h2).symm
    · exact Option.some.inj (h2.symm.trans (hnum _ _ _ _ (numberOf_30s P)))
    · exact (Option.some.inj h2).symm
    · exact (Option.some.inj h2).symm
    · exact Option.some.inj (h2.symm.trans (hnum _ _ _ _ (numberOf_500MB P)))
    · have : (Rule.oneOf ["off".toList, "unlimited".toList, "largest".toList, "lru".toList]).apply P (.str "largest".toList) = some (.str "largest".toList) := by
        show (if P.strOf (.str "largest".toList) ∈ _ then some (V.str (P.strOf (.str "largest".toList))) else none) = _
        rw [P.strOf_str]; simp
      exact Option.some.inj (h2.symm.trans this)
    · exact (Option.some.inj h2).symm
  subst hww
  exact getConf_value P env c name r hr he v w' (hc.trans h1) h3

/-- `reset(name)`: the option reads as its default, all others as before. -/
theorem C21_one (P : Py) (R : Raises) (s : St) (name : String) (r : Rule) (hr : ruleOf name = some r) (w : V)
    (hw : defaultReads P name = some w) :
    (s.noVar name → (reset P R (some name) s).2.view P name = .ok w) ∧
    (∀ m, m ≠ name → (reset P R (some name) s).2.view P m = s.view P m) ∧
    ((reset P R (some name) s).1 = none ∨ (reset P R (some name) s).1 = some .observer) := by
  obtain ⟨o, ho, hd, _⟩ := option_rule P name r hr
  have hD : DEFAULTS P name = some o.default := by rw [defaultOf_eq, hd]
  unfold reset
  simp only [hD]
  have hv : (changed P R (s.setTop ((s.top.conf.erase name).set name o.default))).2.view P =
      getConf P s.env ((s.top.conf.erase name).set name o.default) := by
    rw [view_core P (changed_core P R _), view_setTop]
  refine ⟨?_, ?_, ?_⟩
  · intro he; rw [hv]
    exact default_reads P _ _ name r hr he (by rw [set_self, hd]) w hw
  · intro m hm; rw [hv]
    exact getConf_other P _ _ _ m (by rw [set_other _ _ _ _ hm]; simp [Conf.erase, hm])
  · have := changedN_err P R 1 (s.setTop ((s.top.conf.erase name).set name o.default))
    unfold changedN at this
    generalize changed P R (s.setTop ((s.top.conf.erase name).set name o.default)) = x at *
    obtain ⟨e, s'⟩ := x
    cases e with
    | none => exact Or.inl rfl
    | some e => exact Or.inr (congrArg some (this e rfl))

/-- `reset()`: every option reads as its default. -/
theorem C21_all (P : Py) (R : Raises) (s : St) (name : String) (r : Rule) (hr : ruleOf name = some r) (w : V)
    (hw : defaultReads P name = some w) (he : s.noVar name) : (reset P R none s).2.view P name = .ok w := by
  unfold reset
  simp only
  rw [view_core P (changed_core P R _), view_setTop]
  exact default_reads P _ _ name r hr he (defaultOf_eq P name) w hw

/-- Other names: KeyError, nothing changed. -/
theorem C21_unknown (P : Py) (R : Raises) (s : St) (name : String) (hr : ruleOf name = none) :
    reset P R (some name) s = (some .key, s) := by
  have : DEFAULTS P name = none := by
    unfold DEFAULTS; rw [(option_none_iff P name).2 hr]; rfl
  simp [reset, this]

example : defaultReads py "maximum-cache-size" = some (.int 5368709120) := by decide
example : ruleOf "no-such-option" = none := rfl

/-! ### C22: saved configuration reloads -/

theorem getConf_congr (P : Py) (env : Env) (c c' : Conf) (h : ∀ name r, ruleOf name = some r → c' name = c name) (name : String) :
    getConf P env c' name = getConf P env c name := by
  cases hr : ruleOf name with
  | none => unfold getConf; rw [(option_none_iff P name).2 hr]
  | some r => exact getConf_other P env c c' name (h name r hr)

theorem fold_typed (P : Py) (path old : String) (env : Env) (files : String → Option File) (h : files path = none)
    (h' : files old = none) : (start P path old env files).Typed P := by
  have hd := defaults_typed P
  have hsafe : ∀ name r v, ruleOf name = some r → DEFAULTS P name = some v → safe P v = true := by
    intro name r v hr hv
    rw [defaultOf_eq] at hv
    unfold ruleOf at hr
    split at hr
    all_goals first | (cases hr; done) | skip
    all_goals simp only [defaultOf, Option.some.injEq] at hv
    all_goals subst hv
    all_goals rfl
  have hl : Config.Typed P (load P (some (dump P (DEFAULTS P)))).1 := by
    intro name r hr
    rw [load_dump P (DEFAULTS P) hd hsafe name r hr]
    exact hd name r hr
  have hroot : (start P path old env files).root.conf = (load P (some (dump P (DEFAULTS P)))).1 ∧ (start P path old env files).stack = [] := by
    unfold start initFiles
    simp only [h, h', if_true]
    split
    · rw [(saveCfg_core P _ _).root, (saveCfg_core P _ _).stack]; exact ⟨rfl, rfl⟩
    · exact ⟨rfl, rfl⟩
  refine ⟨by rw [hroot.1]; exact hl, ?_⟩
  rw [hroot.2]; simp

theorem start_view (P : Py) (path old : String) (env : Env) (files : String → Option File) (f : File) (h : files path = some f)
    (name : String) : (start P path old env files).view P name = getConf P env (load P (some f)).1 name := by
  have : (start P path old env files).top.conf = (load P (some f)).1 ∧ (start P path old env files).env = env := by
    unfold start initFiles
    simp only [h]
    split
    · rw [(saveCfg_core P _ _).top, (saveCfg_core P _ _).env]; exact ⟨rfl, rfl⟩
    · exact ⟨rfl, rfl⟩
  unfold St.view
  rw [this.1, this.2]

/-- After a successful `set` or `reset` of the user's configuration (not in a temporary block), starting again with its file reads
every option alike, provided the values are ones a yaml file can hold. The state before is any state reached by any program from a
first start. -/
theorem C22_restart_partial (P : Py) (R : Raises) (path old : String) (env : Env) (files : String → Option File)
    (hf : files path = none) (hf' : files old = none) (p : Prog) (s s' : St) (hs : s = (run P R p (start P path old env files)).2)
    (hst : s.stack = []) (hy : s.root.yaml = some path) (hw : s.writable path = true) (ha : s.autosave = true)
    (a : Act) (hact : (∃ req, a = .set req) ∨ ∃ n, a = .reset n) (h : act P R a s = (none, s'))
    (hsafe : ∀ name r v, ruleOf name = some r → s'.root.conf name = some v → safe P v = true) (name : String) (old' : String) :
    (start P path old' s'.env s'.files).view P name = s'.view P name := by
  have htyped : s'.Typed P := by
    have h1 := run_typed P R p _ (fold_typed P path old env files hf hf')
    rw [← hs] at h1
    have h2 := (typed_stable P R).act a s trivial h1
    rwa [h] at h2
  have key : ∀ n c, changedN P R (n + 1) (s.setTop c) = (none, s') →
      s'.files path = some (dump P s'.root.conf) ∧ s'.stack = [] := by
    intro n c h
    have hc := changedN_core P R (n + 1) (s.setTop c)
    rw [h] at hc
    have hroot : (s.setTop c).root = ⟨c, some path⟩ ∧ (s.setTop c).stack = [] := by
      rcases setTop_cases s c with ⟨_, h1, h2⟩ | ⟨t, ts, h1, _⟩
      · exact ⟨by rw [h1, hy], h2⟩
      · rw [hst] at h1; cases h1
    refine ⟨?_, by rw [hc.stack, hroot.2]⟩
    rw [hc.root, hroot.1]
    simp only
    -- every call of `_changed` writes the same file
    have one : ∀ t : St, t.root = ⟨c, some path⟩ → t.stack = [] → t.autosave = true → t.writable path = true →
        (changed P R t).2.files path = some (dump P c) := by
      intro t h1 h2 h3 h4
      have htop : t.top = ⟨c, some path⟩ := by unfold St.top; rw [h2, ← h1]; rfl
      unfold changed notify
      rw [if_pos h3, (notifyL_core R _ _).2]
      simp [saveCfg, htop, h4]
    have many : ∀ n (t : St), t.root = ⟨c, some path⟩ → t.stack = [] → t.autosave = true → t.writable path = true →
        (changedN P R (n + 1) t).2.files path = some (dump P c) := by
      intro n
      induction n with
      | zero =>
        intro t h1 h2 h3 h4
        have := one t h1 h2 h3 h4
        unfold changedN
        generalize changed P R t = x at *
        obtain ⟨e, t'⟩ := x
        cases e <;> exact this
      | succ n ih =>
        intro t h1 h2 h3 h4
        have h5 := one t h1 h2 h3 h4
        have h6 := changed_core P R t
        rw [changedN]
        generalize changed P R t = x at *
        obtain ⟨e, t'⟩ := x
        cases e with
        | some e => exact h5
        | none => exact ih t' (by rw [h6.root, h1]) (by rw [h6.stack, h2]) (by rw [h6.autosave, h3]) (by rw [h6.writable, h4])
    have h1 := setTop_env s c
    have := many n (s.setTop c) hroot.1 hroot.2 (by rw [h1.2.2.2.2.1, ha]) (by rw [h1.2.2.2.2.2, hw])
    rwa [h] at this
  have hfile : s'.files path = some (dump P s'.root.conf) ∧ s'.stack = [] := by
    rcases hact with ⟨req, rfl⟩ | ⟨n, rfl⟩
    · have h : set P R req s = (none, s') := h
      rcases set_result P R req s with ⟨e, _, h2⟩ | ⟨h1, h2⟩
      · rw [h2] at h; cases h
      · rw [h2] at h
        have hpos : ∃ n, (applyReq P s.top.conf req).2.2 = n + 1 := by
          cases req with
          | kw kvs =>
            cases kvs with
            | nil => simp [applyReq] at h1
            | cons kv kvs => rw [applyReq_kw P _ _ (by simp)] at h1 ⊢; simp only at h1; exact ⟨1, by rw [if_pos h1]⟩
          | dict kvs =>
            simp only [applyReq] at h1 ⊢
            generalize setMany P s.top.conf kvs = x at *
            obtain ⟨e, c⟩ := x
            cases e with
            | some e => cases h1
            | none => exact ⟨0, rfl⟩
          | pos nm args kw =>
            simp only [applyReq] at h1 ⊢
            cases hx : setOne P s.top.conf nm args kw with
            | error e => rw [hx] at h1; cases h1
            | ok c => exact ⟨0, rfl⟩
        obtain ⟨n, hn⟩ := hpos
        rw [hn] at h
        exact key n _ h
    · have h : reset P R n s = (none, s') := h
      have key0 : ∀ c, changed P R (s.setTop c) = (none, s') → s'.files path = some (dump P s'.root.conf) ∧ s'.stack = [] := by
        intro c hc
        refine key 0 c ?_
        unfold changedN
        rw [hc]
        rfl
      unfold reset at h
      cases n with
      | none => exact key0 _ h
      | some n =>
        simp only at h
        cases hD : DEFAULTS P n with
        | none => rw [hD] at h; cases h
        | some v => rw [hD] at h; exact key0 _ h
  rw [start_view P path old' s'.env s'.files _ hfile.1 name]
  have htop : s'.top.conf = s'.root.conf := by unfold St.top; rw [hfile.2]; rfl
  unfold St.view
  rw [htop]
  exact getConf_congr P _ _ _ (fun nm r hr => load_dump P s'.root.conf htyped.1 hsafe nm r hr) name

/-- A value yaml cannot read back (here a `pathlib.Path` as the temporary directory) makes the next start lose every option. -/
theorem C22_refuted : ∃ s1 s2, set py quiet (.pos "cache-policy" [.str "off".toList] false) fresh = (none, s1) ∧
    set py quiet (.pos "temporary-directory-root" [.other 0] false) s1 = (none, s2) ∧
    s2.view py "cache-policy" = .ok (.str "off".toList) ∧
    (start py "/cfg" "/old" s2.env s2.files).view py "cache-policy" = .ok (.str "user".toList) := by
  refine ⟨_, _, rfl, rfl, ?_, ?_⟩ <;> decide +kernel

example : fresh.stack = [] ∧ fresh.root.yaml = some "/cfg" ∧ fresh.writable "/cfg" = true ∧ fresh.autosave = true := by
  refine ⟨rfl, rfl, rfl, rfl⟩

/-! ### C23: observers -/

theorem changedN_log (P : Py) (R : Raises) (n : Nat) (s s' : St) (h : changedN P R (n + 1) s = (none, s')) :
    ∃ mid, s'.log = s.log ++ mid ++ s.callbacks.map (fun o => .called o s.top.conf) := by
  induction n generalizing s with
  | zero =>
    unfold changedN at h
    cases hc : changed P R s with
    | mk e t =>
      rw [hc] at h
      cases e with
      | some e => cases h
      | none =>
        cases h
        exact ⟨[], by simp [changed_log P R s _ hc]⟩
  | succ n ih =>
    rw [changedN] at h
    cases hc : changed P R s with
    | mk e t =>
      rw [hc] at h
      cases e with
      | some e => cases h
      | none =>
        obtain ⟨mid, hm⟩ := ih t h
        have hcore := changed_core P R s
        rw [hc] at hcore
        rw [hm, changed_log P R s _ hc, hcore.callbacks, hcore.top]
        exact ⟨s.callbacks.map (fun o => .called o s.top.conf) ++ mid, by simp⟩

/-- After a successful `set` or `reset` the last thing that happened is that every observer, in order of registration, was called
while the new configuration was visible. -/
theorem C23_set_reset (P : Py) (R : Raises) (s s' : St) (a : Act) (hact : (∃ req, a = .set req) ∨ ∃ n, a = .reset n)
    (h : act P R a s = (none, s')) :
    ∃ mid, s'.log = s.log ++ mid ++ s.callbacks.map (fun o => .called o s'.top.conf) := by
  have key : ∀ n c, changedN P R (n + 1) (s.setTop c) = (none, s') →
      ∃ mid, s'.log = s.log ++ mid ++ s.callbacks.map (fun o => .called o s'.top.conf) := by
    intro n c h
    obtain ⟨mid, hm⟩ := changedN_log P R n _ _ h
    have hc := changedN_core P R (n + 1) (s.setTop c)
    rw [h] at hc
    refine ⟨mid, ?_⟩
    rw [hm, hc.top, (setTop_env s c).2.1, (setTop_env s c).2.2.1]
  rcases hact with ⟨req, rfl⟩ | ⟨n, rfl⟩
  · have h : set P R req s = (none, s') := h
    rcases set_result P R req s with ⟨e, _, h2⟩ | ⟨h1, h2⟩
    · rw [h2] at h; cases h
    · rw [h2] at h
      have hpos : ∃ n, (applyReq P s.top.conf req).2.2 = n + 1 := by
        cases req with
        | kw kvs =>
          cases kvs with
          | nil => simp [applyReq] at h1
          | cons kv kvs => rw [applyReq_kw P _ _ (by simp)] at h1 ⊢; simp only at h1; exact ⟨1, by rw [if_pos h1]⟩
        | dict kvs =>
          simp only [applyReq] at h1 ⊢
          generalize setMany P s.top.conf kvs = x at *
          obtain ⟨e, c⟩ := x
          cases e with
          | some e => cases h1
          | none => exact ⟨0, rfl⟩
        | pos nm args kw =>
          simp only [applyReq] at h1 ⊢
          cases hx : setOne P s.top.conf nm args kw with
          | error e => rw [hx] at h1; cases h1
          | ok c => exact ⟨0, rfl⟩
      obtain ⟨n, hn⟩ := hpos
      rw [hn] at h
      exact key n _ h
  · have h : reset P R n s = (none, s') := h
    have key0 : ∀ c, changed P R (s.setTop c) = (none, s') →
        ∃ mid, s'.log = s.log ++ mid ++ s.callbacks.map (fun o => .called o s'.top.conf) := by
      intro c hc
      refine key 0 c ?_
      unfold changedN
      rw [hc]
      rfl
    unfold reset at h
    cases n with
    | none => exact key0 _ h
    | some n =>
      simp only at h
      cases hD : DEFAULTS P n with
      | none => rw [hD] at h; cases h
      | some v => rw [hD] at h; exact key0 _ h

/-- A block that ends without error: on entry every observer was called while the temporary configuration was visible, before
anything in the body; and the last thing that happened is that every observer was called with the configuration left visible. -/
theorem C23_temporary (P : Py) (R : Raises) (r : Option Req) (y : Option String) (b : Prog) (s s' : St)
    (h : run P R (.temp r y b) s = (none, s')) :
    (s.log ++ s.callbacks.map (fun o => .called o (makeTemp P r y s).2.1.conf)) <+: s'.log ∧
    ∃ mid, s'.log = mid ++ s'.callbacks.map (fun o => .called o s'.top.conf) := by
  unfold run at h
  have hml : (makeTemp P r y s).2.2.log = s.log := by
    unfold makeTemp
    split
    · rfl
    · split
      · rfl
      · simp only; split
        · exact saveCfg_log P _ s
        · rfl
  have hm := makeTemp_core P r y s
  generalize makeTemp P r y s = m at *
  obtain ⟨e, t, s1⟩ := m
  simp only at hm hml
  cases e with
  | some e => cases h
  | none =>
    simp only [notify] at h
    cases hn : notifyL R s1.callbacks { s1 with stack := t :: s1.stack } with
    | mk e s2 =>
      rw [hn] at h
      cases e with
      | some e => cases h
      | none =>
        simp only at h
        have hlog := notifyL_log R _ _ _ hn
        have hpre := run_log_prefix P R b s2
        generalize run P R b s2 = z at *
        obtain ⟨e, s3⟩ := z
        simp only at h hpre
        cases hx : notifyL R s3.callbacks { s3 with stack := s3.stack.tail } with
        | mk e' s4 =>
          rw [hx] at h
          cases e' with
          | some e' => cases h
          | none =>
            simp only [Prod.mk.injEq] at h
            obtain ⟨_, rfl⟩ := h
            have hl4 := notifyL_log R _ _ _ hx
            have hc4 := (notifyL_core R s3.callbacks { s3 with stack := s3.stack.tail }).1
            rw [hx] at hc4
            refine ⟨?_, s3.log, ?_⟩
            · have h2 : s.log ++ s.callbacks.map (fun o => .called o t.conf) = s2.log := by
                rw [hlog]
                simp only [hml, hm.callbacks]
                rfl
              rw [h2]
              refine hpre.trans ?_
              rw [hl4]
              exact List.prefix_append _ _
            · rw [hl4, hc4.callbacks, hc4.top]

example : (run py quiet (.temp (some (.kw [("cache_policy", .str "off".toList)])) none .skip) { fresh with callbacks := [1, 2] }).2.log.length = 4 := by
  decide +kernel

/-! ### C24: policies -/

/-- Reading a documented option never fails (no variable set): whatever programs did, the values kept are acceptable. -/
theorem C24_reads_succeed (P : Py) (R : Raises) (p : Prog) (s : St) (hs : s.Typed P) (name : String) (r : Rule)
    (hr : ruleOf name = some r) (he : (run P R p s).2.noVar name) :
    ∃ v w, r.apply P v = some w ∧ (run P R p s).2.view P name = .ok w := by
  obtain ⟨v, w, h1, h2, h3, _⟩ := (run_typed P R p s hs).top name r hr
  exact ⟨v, w, h2, getConf_value P _ _ name r hr he v w h1 h3⟩

theorem typed_policy (P : Py) (c : Conf) (hc : Typed P c) (env : Env) (name : String) (l : List (List Char))
    (hr : ruleOf name = some (.oneOf l)) (he : env (envName name) = none) (w : V) (h : getConf P env c name = .ok w) :
    ∃ t ∈ l, w = .str t := by
  obtain ⟨v, w', h1, h2, h3, _⟩ := hc name _ hr
  have := getConf_value P env c name _ hr he v w' h1 h3
  rw [this] at h
  cases h
  have h2 : (if P.strOf v ∈ l then some (V.str (P.strOf v)) else none) = some w := h2
  split at h2
  · cases h2; exact ⟨_, by assumption, rfl⟩
  · cases h2

/-- Every read of the two policies, at any point of any program that sets no variable, gives a documented value. -/
theorem C24_policies (P : Py) (R : Raises) (p : Prog) (hp : p.noEnv) (s : St) (hs : s.Typed P) (h1 : s.noVar "cache-policy")
    (h2 : s.noVar "weights-memory-cache-policy") (hl : GoodReads s.log) : GoodReads (run P R p s).2.log := by
  let I : St → Prop := fun s => s.Typed P ∧ s.noVar "cache-policy" ∧ s.noVar "weights-memory-cache-policy" ∧ GoodReads s.log
  have hlog : ∀ (l l' : List Event), GoodReads l → (∀ e ∈ l', e ∈ l ∨ ∃ o c, e = .called o c) → GoodReads l' := by
    intro l l' h h' v
    refine ⟨?_, ?_⟩
    · intro hv
      rcases h' _ hv with h'' | ⟨o, c, h''⟩
      · exact (h v).1 h''
      · cases h''
    · intro hv
      rcases h' _ hv with h'' | ⟨o, c, h''⟩
      · exact (h v).2 h''
      · cases h''
  have T := typed_stable P R
  have S : Stable P R I (fun a => ∀ n v, a ≠ .setEnv n v) (fun _ _ => True) := by
    refine ⟨?_, ?_, ?_, ?_, ?_⟩
    · intro a s ha ⟨i1, i2, i3, i4⟩
      refine ⟨T.act a s trivial i1, ?_⟩
      cases a with
      | set req =>
        show St.noVar (set P R req s).2 _ ∧ _
        rcases set_result P R req s with ⟨e, _, h⟩ | ⟨_, h⟩
        · rw [show (act P R (.set req) s) = set P R req s from rfl, h]
          unfold St.noVar
          rw [(setTop_env _ _).1, (setTop_env _ _).2.2.1]
          exact ⟨i2, i3, i4⟩
        · rw [show (act P R (.set req) s) = set P R req s from rfl, h]
          unfold St.noVar
          rw [(changedN_core P R _ _).env, (setTop_env _ _).1]
          refine ⟨i2, i3, hlog _ _ i4 ?_⟩
          intro e he
          rcases changedN_events P R _ _ e he with h | ⟨o, h⟩
          · rw [(setTop_env _ _).2.2.1] at h; exact Or.inl h
          · exact Or.inr ⟨o, _, h⟩
      | reset n =>
        have key : ∀ c, (changed P R (s.setTop c)).2.noVar "cache-policy" ∧ (changed P R (s.setTop c)).2.noVar "weights-memory-cache-policy" ∧
            GoodReads (changed P R (s.setTop c)).2.log := by
          intro c
          unfold St.noVar
          rw [(changed_core P R _).env, (setTop_env _ _).1]
          refine ⟨i2, i3, hlog _ _ i4 ?_⟩
          intro e he
          rcases changed_events P R _ e he with h | ⟨o, h⟩
          · rw [(setTop_env _ _).2.2.1] at h; exact Or.inl h
          · exact Or.inr ⟨o, _, h⟩
        show St.noVar (reset P R n s).2 _ ∧ St.noVar (reset P R n s).2 _ ∧ GoodReads (reset P R n s).2.log
        unfold reset
        split
        · exact key _
        · split
          · exact ⟨i2, i3, i4⟩
          · exact key _
      | get n =>
        simp only [act]
        split
        · rename_i w hw
          refine ⟨i2, i3, ?_⟩
          intro v
          refine ⟨?_, ?_⟩
          · intro hv
            rcases List.mem_append.1 hv with hv | hv
            · exact (i4 v).1 hv
            · simp only [List.mem_singleton, Event.got.injEq] at hv
              obtain ⟨rfl, rfl⟩ := hv
              exact typed_policy P _ i1.top s.env _ _ rfl i2 _ hw
          · intro hv
            rcases List.mem_append.1 hv with hv | hv
            · exact (i4 v).2 hv
            · simp only [List.mem_singleton, Event.got.injEq] at hv
              obtain ⟨rfl, rfl⟩ := hv
              exact typed_policy P _ i1.top s.env _ _ rfl i3 _ hw
        · exact ⟨i2, i3, i4⟩
      | autosave b => exact ⟨i2, i3, i4⟩
      | onChange o => exact ⟨i2, i3, i4⟩
      | setEnv n v => exact absurd rfl (ha n v)
    · intro r y s _ ⟨i1, i2, i3, i4⟩ hok
      refine ⟨T.push r y s trivial i1 hok, ?_, ?_, ?_⟩
      · unfold St.noVar; simp only; rw [(makeTemp_core P r y s).env]; exact i2
      · unfold St.noVar; simp only; rw [(makeTemp_core P r y s).env]; exact i3
      · have hml : (makeTemp P r y s).2.2.log = s.log := by
          unfold makeTemp
          split
          · rfl
          · split
            · rfl
            · simp only; split
              · exact saveCfg_log P _ s
              · rfl
        simp only; rw [hml]; exact i4
    · intro s ⟨i1, i2, i3, i4⟩
      exact ⟨T.pop s i1, i2, i3, i4⟩
    · intro os s ⟨i1, i2, i3, i4⟩
      refine ⟨T.notify os s i1, ?_, ?_, ?_⟩
      · unfold St.noVar; rw [(notifyL_core R os s).1.env]; exact i2
      · unfold St.noVar; rw [(notifyL_core R os s).1.env]; exact i3
      · refine hlog _ _ i4 ?_
        intro e he
        rcases notifyL_events R os s e he with h | ⟨o, h⟩
        · exact Or.inl h
        · exact Or.inr ⟨o, _, h⟩
    · intro s n h; exact h
  have hall : ∀ p : Prog, p.noEnv → p.all (fun a => ∀ n v, a ≠ .setEnv n v) (fun _ _ => True) := by
    intro p
    induction p with
    | skip => intro _; trivial
    | raise => intro _; trivial
    | act a =>
      intro h n v hv
      subst hv
      exact h
    | seq p q h1 h2 => exact fun h => ⟨h1 h.1, h2 h.2⟩
    | catch_ p q h1 h2 => exact fun h => ⟨h1 h.1, h2 h.2⟩
    | temp r y b h => exact fun h' => ⟨trivial, h h'⟩
  exact (S.run p (hall p hp) s ⟨hs, h1, h2, hl⟩).2.2.2

example : fresh.Typed py := fold_typed py "/cfg" "/old" _ _ rfl rfl
example : GoodReads fresh.log := by 
  have h : fresh.log = [] := rfl
  rw [h]
  intro v
  simp

/-! ### C25: boolean options as text -/

/-- The text 'False' turns every boolean option on, whatever it was. -/
theorem C25_refuted (P : Py) (R : Raises) (s s' : St) (name : String) (hr : ruleOf name = some .flag) (he : s.noVar name)
    (e : Option Err) (h : set P R (.pos name [.str "False".toList] false) s = (e, s')) (hok : e = none ∨ e = some .observer) :
    s'.view P name = .ok (.bool true) := by
  obtain ⟨w, h1, h2, _⟩ := C16_set_get P R s s' name .flag _ e hr he h hok
  simp [Rule.apply, truthy] at h1
  rw [h2, ← h1]

/-- So does every other text that is not empty: 'no', 'off', '0'. -/
theorem C25_text_refuted (P : Py) (R : Raises) (s s' : St) (name : String) (hr : ruleOf name = some .flag) (he : s.noVar name)
    (t : List Char) (ht : t ≠ []) (e : Option Err) (h : set P R (.pos name [.str t] false) s = (e, s')) (hok : e = none ∨ e = some .observer) :
    s'.view P name = .ok (.bool true) := by
  obtain ⟨w, h1, h2, _⟩ := C16_set_get P R s s' name .flag _ e hr he h hok
  rw [h2]
  cases t with
  | nil => exact absurd rfl ht
  | cons c t =>
    simp [Rule.apply, truthy] at h1
    rw [← h1]

/-- By environment variable the option reads as the text itself, which python's `if` takes as true unless it is empty. -/
theorem C25_variable_refuted (P : Py) (s : St) (name : String) (hr : ruleOf name = some .flag) (t : List Char)
    (he : s.env (envName name) = some t) :
    s.view P name = .ok (.str t) ∧ (truthy P (.str t) = true ↔ t ≠ []) := by
  refine ⟨?_, by cases t <;> simp [truthy]⟩
  rw [C17_variable_wins P s name .flag _ hr he]
  rfl

/-- What does work: the python values True, False, 1, 0, None and the empty text. -/
theorem C25_values_partial (P : Py) (R : Raises) (s s' : St) (name : String) (hr : ruleOf name = some .flag) (he : s.noVar name)
    (v : V) (b : Bool) (hv : v = .bool b ∨ (v = .int 0 ∧ b = false) ∨ (v = .int 1 ∧ b = true) ∨ (v = .none ∧ b = false) ∨ (v = .str [] ∧ b = false))
    (e : Option Err) (h : set P R (.pos name [v] false) s = (e, s')) (hok : e = none ∨ e = some .observer) :
    s'.view P name = .ok (.bool b) := by
  obtain ⟨w, h1, h2, _⟩ := C16_set_get P R s s' name .flag _ e hr he h hok
  rw [h2]
  rcases hv with rfl | ⟨rfl, rfl⟩ | ⟨rfl, rfl⟩ | ⟨rfl, rfl⟩ | ⟨rfl, rfl⟩ <;> (simp [Rule.apply, truthy] at h1; rw [← h1])

example : (set py quiet (.pos "check-out-of-date-urls" [.str "False".toList] false) fresh).1 = none := by decide +kernel

/-! ### C77: old settings are taken over -/

theorem foldl_set (es : File) (c0 : Conf) (hn : (es.map Prod.fst).Nodup) (k : String) :
    (∀ v, (k, v) ∈ es → (es.foldl (fun c e => Conf.set c e.1 e.2) c0) k = some v) ∧
    (k ∉ es.map Prod.fst → (es.foldl (fun c e => Conf.set c e.1 e.2) c0) k = c0 k) := by
  induction es generalizing c0 with
  | nil => exact ⟨by simp, by simp⟩
  | cons e es ih =>
    rw [List.map_cons, List.nodup_cons] at hn
    obtain ⟨i1, i2⟩ := ih (c0.set e.1 e.2) hn.2
    refine ⟨?_, ?_⟩
    · intro v hv
      rcases List.mem_cons.1 hv with rfl | hv
      · simp only [List.foldl_cons]; rw [i2 hn.1, set_self]
      · exact i1 v hv
    · intro hk
      rw [List.map_cons, List.mem_cons, not_or] at hk
      simp only [List.foldl_cons]
      rw [i2 hk.2, set_other _ _ _ _ hk.1]

/-- First start with an old settings file and no config file: every option of the old file that its rule accepts (a flag as a
bool) reads as it did, every other option has its default. -/
theorem C77_migrated (P : Py) (path old : String) (env : Env) (files : String → Option File) (es : File)
    (hf : files path = none) (ho : files old = some es) (hn : (es.map Prod.fst).Nodup) (hsafe : ∀ e ∈ es, safe P e.2 = true)
    (hty : ∀ e ∈ es, ∀ r, ruleOf e.1 = some r → (∃ w, r.apply P e.2 = some w) ∧
      (match r with
        | .flag => ∃ b, e.2 = .bool b
        | .text => ∃ t, e.2 = .str t
        | .oneOf _ => ∃ t, e.2 = .str t
        | _ => True))
    (name : String) (r : Rule) (hr : ruleOf name = some r) (he : env (envName name) = none) :
    (∀ v w, (name, v) ∈ es → r.apply P v = some w → (start P path old env files).view P name = .ok w) ∧
    (∀ w, name ∉ es.map Prod.fst → defaultReads P name = some w → (start P path old env files).view P name = .ok w) := by
  let c : Conf := es.foldl (fun c e => Conf.set c e.1 e.2) (DEFAULTS P)
  have hval : ∀ name r v w, ruleOf name = some r → (name, v) ∈ es → r.apply P v = some w →
      ∀ o, option P name = some o → convert P o.getter o.noneOk v = .ok w := by
    intro name r v w hr hv hw o ho
    obtain ⟨_, hsh⟩ := hty _ hv r hr
    obtain ⟨o', ho', _, hrr⟩ := option_rule P name r hr
    rw [ho] at ho'; cases ho'
    cases r with
    | flag =>
      obtain ⟨b, hb⟩ := hsh
      simp only at hb
      subst hb
      obtain ⟨g1, g2, g3⟩ := hrr
      simp [Rule.apply, truthy] at hw
      simp [g2, convert, hw]
    | text =>
      obtain ⟨b, hb⟩ := hsh
      simp only at hb
      subst hb
      obtain ⟨g1, g2, g3⟩ := hrr
      simp [Rule.apply, P.strOf_str] at hw
      simp [g2, convert, hw]
    | path =>
      obtain ⟨g1, g2, g3⟩ := hrr
      rw [g1, g2]
      simp only [Rule.apply] at hw
      simp only [convert, and_true]
      split at hw <;> simp_all
    | oneOf l =>
      obtain ⟨b, hb⟩ := hsh
      simp only at hb
      subst hb
      obtain ⟨g1, g2, g3⟩ := hrr
      have hw : (if P.strOf (.str b) ∈ l then some (V.str (P.strOf (.str b))) else none) = some w := hw
      rw [P.strOf_str] at hw
      split at hw
      · cases hw; simp [g2, convert]
      · cases hw
    | number u n =>
      obtain ⟨g, g1, g2, g3, g4⟩ := hrr
      rw [g1, g2, convert_number P g n u _ g4]
      have hw : (if v = .none ∧ n = true then some V.none else numberOf P u (P.strOf v)) = some w := hw
      rw [hw]
  have hct : Typed P c := by
    intro name r hr
    by_cases hin : name ∈ es.map Prod.fst
    · obtain ⟨⟨k, v⟩, hkv, rfl⟩ := List.mem_map.1 hin
      obtain ⟨⟨w, hw⟩, hsh⟩ := hty _ hkv r hr
      refine ⟨v, w, (foldl_set es _ hn k).1 v hkv, hw, hval k r v w hr hkv hw, ?_⟩
      cases r with
      | flag => exact hsh
      | _ => trivial
    · obtain ⟨v, w, h1, h2⟩ := defaults_typed P name r hr
      exact ⟨v, w, by rw [← h1]; exact (foldl_set es _ hn name).2 hin, h2⟩
  have hcs : ∀ name r v, ruleOf name = some r → c name = some v → safe P v = true := by
    intro name r v hr hv
    by_cases hin : name ∈ es.map Prod.fst
    · obtain ⟨⟨k, v'⟩, hkv, rfl⟩ := List.mem_map.1 hin
      rw [show c k = some v' from (foldl_set es _ hn k).1 v' hkv] at hv
      cases hv
      exact hsafe _ hkv
    · rw [show c name = DEFAULTS P name from (foldl_set es _ hn name).2 hin, defaultOf_eq] at hv
      unfold ruleOf at hr
      split at hr
      all_goals first | (cases hr; done) | skip
      all_goals simp only [defaultOf, Option.some.injEq] at hv
      all_goals subst hv
      all_goals rfl
  have hview : (start P path old env files).view P name = getConf P env c name := by
    have hs : es.all (fun e => safe P e.2) = true := List.all_eq_true.2 hsafe
    have hfiles : initFiles P path old files path = some (dump P c) := by
      unfold initFiles
      simp [hf, ho, hs, c]
    have : (start P path old env files).top.conf = (load P (some (dump P c))).1 ∧ (start P path old env files).env = env := by
      unfold start
      simp only [hfiles]
      split
      · rw [(saveCfg_core P _ _).top, (saveCfg_core P _ _).env]; exact ⟨rfl, rfl⟩
      · exact ⟨rfl, rfl⟩
    unfold St.view
    rw [this.1, this.2]
    exact getConf_congr P _ _ _ (fun nm r hr => load_dump P c hct hcs nm r hr) name
  refine ⟨?_, ?_⟩
  · intro v w hv hw
    rw [hview]
    exact getConf_value P env c name r hr he v w ((foldl_set es _ hn name).1 v hv) (hval name r v w hr hv hw)
  · intro w hni hw
    rw [hview]
    refine default_reads P env c name r hr he ?_ w hw
    rw [← defaultOf_eq]
    exact (foldl_set es _ hn name).2 hni

example : (start py "/cfg" "/old" (fun _ => none) (fun p => if p = "/old" then some [("cache-policy", .str "off".toList)] else none)).view py
    "cache-policy" = .ok (.str "off".toList) := by decide +kernel

/-! ### C78: reading while another process saves -/

/-- Once all entries are written the file reads as the saved configuration. -/
theorem C78_complete_partial (P : Py) (c : Conf) (hc : Typed P c) (hs : ∀ name r v, ruleOf name = some r → c name = some v → safe P v = true)
    (env : Env) (n : Nat) (hn : (dump P c).length ≤ n) (name : String) :
    getConf P env (load P (some (midSave P c n))).1 name = getConf P env c name := by
  unfold midSave
  rw [List.take_of_length_le hn]
  exact getConf_congr P _ _ _ (fun nm r hr => load_dump P c hc hs nm r hr) name

theorem dumpOne_key {P : Py} {c : Conf} {k : String} {e : String × V} (h : dumpOne P c k = some e) : e.1 = k ∧ c k = some e.2 := by
  unfold dumpOne at h
  split at h
  · split at h
    · cases h
    · cases h; exact ⟨rfl, by assumption⟩
  · cases h

theorem dump_keys (P : Py) (c : Conf) (l : List String) :
    ((l.filterMap (dumpOne P c)).map Prod.fst).Sublist l := by
  induction l with
  | nil => exact .slnil
  | cons k l ih =>
    rw [List.filterMap_cons]
    split
    · exact ih.cons _
    · rename_i e he
      rw [List.map_cons, (dumpOne_key he).1]
      exact ih.cons₂ _

theorem dump_nodup (P : Py) (c : Conf) : ((dump P c).map Prod.fst).Nodup := by
  unfold dump
  rw [List.map_append]
  refine List.nodup_append.2 ⟨(dump_keys P c SORTED).nodup (by decide), by simp, ?_⟩
  intro a ha b hb
  have h := (dump_keys P c SORTED).subset ha
  simp only [List.map_cons, List.map_nil, List.mem_singleton] at hb
  rw [hb]
  rintro rfl
  exact absurd h (by decide)

theorem dump_safe (P : Py) (c : Conf) (hs : ∀ name r v, ruleOf name = some r → c name = some v → safe P v = true) :
    ∀ e ∈ dump P c, safe P e.2 = true := by
  intro e he
  rcases List.mem_append.1 he with he | he
  · obtain ⟨m, _, hm⟩ := List.mem_filterMap.1 he
    obtain ⟨h1, h2⟩ := dumpOne_key hm
    cases hrm : ruleOf m with
    | none =>
      unfold dumpOne at hm
      rw [(option_none_iff P m).2 hrm] at hm
      cases hm
    | some r => exact hs m r _ hrm h2
  · simp at he; subst he; rfl

/-- At every moment of a save a process that starts reads an option as saved if its entry is written, and as its default if not: never
the old value, never anything else. (A moment is after some number of whole entries.) -/
theorem C78_moment_partial (P : Py) (c : Conf) (hs : ∀ name r v, ruleOf name = some r → c name = some v → safe P v = true)
    (path old : String) (env : Env) (files : String → Option File) (n : Nat) (hf : files path = some (midSave P c n)) (name : String) :
    (name ∈ (midSave P c n).map Prod.fst → (start P path old env files).view P name = getConf P env c name) ∧
    (name ∉ (midSave P c n).map Prod.fst → (start P path old env files).view P name = getConf P env (DEFAULTS P) name) := by
  have hall : (midSave P c n).all (fun e => safe P e.2) = true :=
    List.all_eq_true.2 fun e he => dump_safe P c hs e (List.mem_of_mem_take he)
  have hn : ((midSave P c n).map Prod.fst).Nodup := by
    unfold midSave
    rw [List.map_take]
    exact (List.take_sublist _ _).nodup (dump_nodup P c)
  have hfiles : initFiles P path old files path = some (midSave P c n) := by
    unfold initFiles
    simp [hf]
  have htop : (start P path old env files).top.conf = (load P (some (midSave P c n))).1 ∧ (start P path old env files).env = env := by
    unfold start
    simp only [hfiles]
    split
    · rw [(saveCfg_core P _ _).top, (saveCfg_core P _ _).env]; exact ⟨rfl, rfl⟩
    · exact ⟨rfl, rfl⟩
  have hload : (load P (some (midSave P c n))).1 = (midSave P c n).foldl (fun c e => Conf.set c e.1 e.2) (DEFAULTS P) := by
    unfold load
    simp only [hall, if_true]
  have hview : (start P path old env files).view P name =
      getConf P env ((midSave P c n).foldl (fun c e => Conf.set c e.1 e.2) (DEFAULTS P)) name := by
    unfold St.view
    rw [htop.1, htop.2, hload]
  rw [hview]
  refine ⟨fun h => ?_, fun h => getConf_other P env _ _ name ((foldl_set _ _ hn name).2 h)⟩
  obtain ⟨e, he, rfl⟩ := List.mem_map.1 h
  by_cases hv : e.1 = "version"
  · cases hr : ruleOf e.1 with
    | none => unfold getConf; rw [(option_none_iff P e.1).2 hr]
    | some r => rw [hv] at hr; simp [ruleOf] at hr
  · refine getConf_other P env _ _ e.1 ?_
    rw [(foldl_set _ _ hn e.1).1 e.2 he]
    rcases List.mem_append.1 (List.mem_of_mem_take he) with he | he
    · obtain ⟨m, _, hm⟩ := List.mem_filterMap.1 he
      obtain ⟨h1, h2⟩ := dumpOne_key hm
      rw [h1, h2]
    · simp at he; subst he; exact absurd rfl hv

/-- Before, it does not: with `cache-policy` off before and after a change of another option, a process that starts meanwhile
runs with the default policy. -/
theorem C78_refuted : ∃ s1 s2 n, set py quiet (.pos "cache-policy" [.str "off".toList] false) fresh = (none, s1) ∧
    set py quiet (.pos "check-out-of-date-urls" [.bool true] false) s1 = (none, s2) ∧
    s1.view py "cache-policy" = .ok (.str "off".toList) ∧ s2.view py "cache-policy" = .ok (.str "off".toList) ∧
    (start py "/cfg" "/old" s1.env (fun p => if p = "/cfg" then some (midSave py s2.root.conf n) else s1.files p)).view py "cache-policy"
      = .ok (.str "user".toList) := by
  refine ⟨_, _, 0, rfl, rfl, ?_, ?_, ?_⟩ <;> decide +kernel

/-- `C78_moment_partial`: two options saved, one entry written. -/
example : let c := (set py quiet (.pos "maximum-cache-size" [.str "1G".toList] false)
      (set py quiet (.pos "cache-policy" [.str "off".toList] false) fresh).2).2.root.conf
    "cache-policy" ∈ (midSave py c 1).map Prod.fst ∧ "maximum-cache-size" ∉ (midSave py c 1).map Prod.fst ∧
    "maximum-cache-size" ∈ (midSave py c 2).map Prod.fst := by decide +kernel

/-- `C21_one` -/
example : (reset py quiet (some "cache-policy") (set py quiet (.pos "cache-policy" [.str "off".toList] false) fresh).2).2.view py "cache-policy" =
    .ok (.str "user".toList) := (C21_one py quiet _ "cache-policy" _ rfl _ rfl).1 rfl

/-- `C21_all` -/
example : (reset py quiet none (set py quiet (.pos "cache-policy" [.str "off".toList] false) fresh).2).2.view py "cache-policy" =
    .ok (.str "user".toList) := C21_all py quiet _ "cache-policy" _ rfl _ rfl rfl

/-- Kept values that are tested to be safe are safe. -/
theorem safe_of (P : Py) (c : Conf) (h : ∀ n ∈ SORTED, ((c n).all (safe P)) = true) (name : String) (r : Rule) (v : V)
    (hr : ruleOf name = some r) (hv : c name = some v) : safe P v = true := by
  have := h name (sorted_mem name r hr)
  rw [hv] at this
  exact this

/-- `C22_restart_partial` -/
example : (start py "/cfg" "/old2" (fun _ => none) (set py quiet (.pos "cache-policy" [.str "off".toList] false) fresh).2.files).view py "cache-policy" =
    .ok (.str "off".toList) :=
  C22_restart_partial py quiet "/cfg" "/old" (fun _ => none) (fun _ => none) rfl rfl .skip fresh _ rfl rfl rfl rfl rfl
    (.set (.pos "cache-policy" [.str "off".toList] false)) (.inl ⟨_, rfl⟩) (Prod.ext (by decide +kernel) rfl)
    (safe_of py _ (by decide +kernel)) "cache-policy" "/old2"

/-- `C23_set_reset` -/
example : ∃ mid, (act py quiet (.reset none) { fresh with callbacks := [1, 2] }).2.log = [] ++ mid ++
    [1, 2].map (fun o => .called o (act py quiet (.reset none) { fresh with callbacks := [1, 2] }).2.top.conf) :=
  C23_set_reset py quiet { fresh with callbacks := [1, 2] } _ (.reset none) (.inr ⟨none, rfl⟩) (Prod.ext (by decide +kernel) rfl)

/-- `C23_temporary` -/
example : ∃ mid, (run py quiet (.temp (some (.kw [("cache_policy", .str "off".toList)])) none .skip) { fresh with callbacks := [1, 2] }).2.log = mid ++
    (run py quiet (.temp (some (.kw [("cache_policy", .str "off".toList)])) none .skip) { fresh with callbacks := [1, 2] }).2.callbacks.map (fun o => .called o
      (run py quiet (.temp (some (.kw [("cache_policy", .str "off".toList)])) none .skip) { fresh with callbacks := [1, 2] }).2.top.conf) :=
  (C23_temporary py quiet _ _ _ _ _ (Prod.ext (by decide +kernel) rfl)).2

/-- `C24_reads_succeed`, `C24_policies` -/
example : (∃ v w, (Rule.flag).apply py v = some w ∧ (run py quiet someProg fresh).2.view py "check-out-of-date-urls" = .ok w) ∧
    GoodReads (run py quiet someProg fresh).2.log :=
  ⟨C24_reads_succeed py quiet someProg fresh (fold_typed py "/cfg" "/old" _ _ rfl rfl) "check-out-of-date-urls" _ rfl rfl,
    C24_policies py quiet someProg (by simp [someProg, Prog.noEnv]) fresh (fold_typed py "/cfg" "/old" _ _ rfl rfl) rfl rfl
      (by have h : fresh.log = [] := rfl
          rw [h]; intro v; simp)⟩

/-- `C25_refuted`, `C25_text_refuted`, `C25_variable_refuted`, `C25_values_partial` -/
example : (set py quiet (.pos "check-out-of-date-urls" [.str "False".toList] false) fresh).2.view py "check-out-of-date-urls" = .ok (.bool true) ∧
    (set py quiet (.pos "check-out-of-date-urls" [.str "no".toList] false) fresh).2.view py "check-out-of-date-urls" = .ok (.bool true) ∧
    ({ fresh with env := fun m => if m = envName "check-out-of-date-urls" then some "False".toList else none } : St).view py "check-out-of-date-urls" =
      .ok (.str "False".toList) ∧
    (set py quiet (.pos "check-out-of-date-urls" [.int 1] false) fresh).2.view py "check-out-of-date-urls" = .ok (.bool true) :=
  ⟨C25_refuted py quiet fresh _ _ rfl rfl _ rfl (.inl (by decide +kernel)),
    C25_text_refuted py quiet fresh _ _ rfl rfl _ (by decide) _ rfl (.inl (by decide +kernel)),
    (C25_variable_refuted py _ _ rfl _ (by simp)).1,
    C25_values_partial py quiet fresh _ _ rfl rfl (.int 1) true (.inr (.inr (.inl ⟨rfl, rfl⟩))) _ rfl (.inl (by decide +kernel))⟩

/-- `C77_migrated` -/
example : (start py "/cfg" "/old" (fun _ => none) (fun p => if p = "/old" then some [("cache-policy", .str "off".toList)] else none)).view py "cache-policy" =
    .ok (.str "off".toList) := by
  refine (C77_migrated py "/cfg" "/old" (fun _ => none) _ [("cache-policy", .str "off".toList)] rfl rfl (by decide) (by decide) ?_ "cache-policy" _ rfl rfl).1 _ _
    (List.mem_cons_self) rfl
  intro e he r hr
  rw [List.mem_singleton] at he
  subst he
  simp only [ruleOf, Option.some.injEq] at hr
  subst hr
  exact ⟨⟨_, rfl⟩, _, rfl⟩

/-- `C78_complete_partial` -/
example : getConf py (fun _ => none) (load py (some (midSave py (set py quiet (.pos "cache-policy" [.str "off".toList] false) fresh).2.root.conf 5))).1
    "cache-policy" = .ok (.str "off".toList) :=
  C78_complete_partial py (set py quiet (.pos "cache-policy" [.str "off".toList] false) fresh).2.root.conf
    (run_typed py quiet (.act (.set (.pos "cache-policy" [.str "off".toList] false))) fresh (fold_typed py "/cfg" "/old" _ _ rfl rfl)).1
    (safe_of py _ (by decide +kernel)) (fun _ => none) 5 (by decide +kernel) "cache-policy"

end Verif.Config
