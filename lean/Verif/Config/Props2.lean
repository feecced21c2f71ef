import Verif.Config.Props

/-! Properties C17–C20. -/

namespace Verif.Config
open Verif.Humanize

/-! ### C17: environment variables -/

theorem convert_env (P : Py) (name : String) (r : Rule) (hr : ruleOf name = some r) (o : OptDef) (ho : option P name = some o)
    (t : List Char) : convert P o.getter o.noneOk (.str t) = match r.applyEnv P t with
      | some w => .ok w
      | none => .error .value := by
  obtain ⟨o', ho', _, hrr⟩ := option_rule P name r hr
  rw [ho] at ho'; cases ho'
  cases r with
  | flag => obtain ⟨g1, g2, g3⟩ := hrr; simp [g2, convert, Rule.applyEnv]
  | text => obtain ⟨g1, g2, g3⟩ := hrr; simp [g2, convert, Rule.applyEnv]
  | path => obtain ⟨g1, g2, g3⟩ := hrr; simp [g1, g2, convert, Rule.applyEnv, P.strOf_str]
  | oneOf l => obtain ⟨g1, g2, g3⟩ := hrr; simp [g2, convert, Rule.applyEnv]
  | number u n =>
    obtain ⟨g, g1, g2, g3, g4⟩ := hrr
    rw [g1, g2, convert_number P g n u _ g4, P.strOf_str]
    simp only [Rule.applyEnv, reduceCtorEq, false_and, if_false]
    cases numberOf P u t <;> rfl

/-- With the variable set, the option reads as the variable's text, in whatever state. -/
theorem C17_variable_wins (P : Py) (s : St) (name : String) (r : Rule) (t : List Char) (hr : ruleOf name = some r)
    (ht : s.env (envName name) = some t) :
    s.view P name = match r.applyEnv P t with
      | some w => .ok w
      | none => .error .value := by
  obtain ⟨o, ho, _⟩ := option_rule P name r hr
  unfold St.view getConf
  rw [ho, ht]
  exact convert_env P name r hr o ho t

theorem saveCfg_env (P : Py) (c : Cfg) (s : St) (e : Env) : saveCfg P c { s with env := e } = { saveCfg P c s with env := e } := by
  unfold saveCfg
  split
  · rfl
  · simp only; split <;> rfl

theorem notifyL_env (R : Raises) (hR : ∀ o s e, R o { s with env := e } = R o s) (os : List Nat) (s : St) (e : Env) :
    notifyL R os { s with env := e } = ((notifyL R os s).1, { (notifyL R os s).2 with env := e }) := by
  induction os generalizing s with
  | nil => rfl
  | cons o os ih =>
    unfold notifyL
    simp only
    rw [hR]
    have : (St.top { s with env := e }) = s.top := rfl
    rw [this]
    split
    · rfl
    · exact ih { s with log := s.log ++ [.called o s.top.conf] }

theorem changed_env (P : Py) (R : Raises) (hR : ∀ o s e, R o { s with env := e } = R o s) (s : St) (e : Env) :
    changed P R { s with env := e } = ((changed P R s).1, { (changed P R s).2 with env := e }) := by
  unfold changed notify
  simp only
  have : (St.top { s with env := e }) = s.top := rfl
  rw [this]
  split
  · rw [saveCfg_env]; exact notifyL_env R hR _ _ e
  · exact notifyL_env R hR _ _ e

theorem changedN_env (P : Py) (R : Raises) (hR : ∀ o s e, R o { s with env := e } = R o s) (n : Nat) (s : St) (e : Env) :
    changedN P R n { s with env := e } = ((changedN P R n s).1, { (changedN P R n s).2 with env := e }) := by
  induction n generalizing s with
  | zero => rfl
  | succ n ih =>
    unfold changedN
    rw [changed_env P R hR]
    generalize changed P R s = x
    obtain ⟨r, s'⟩ := x
    cases r with
    | some r => rfl
    | none => exact ih s'

theorem setTop_with_env (s : St) (c : Conf) (e : Env) : St.setTop { s with env := e } c = { s.setTop c with env := e } := by
  unfold St.setTop
  simp only
  split <;> rfl

theorem makeTemp_env (P : Py) (r : Option Req) (y : Option String) (s : St) (e : Env) :
    makeTemp P r y { s with env := e } =
      ((makeTemp P r y s).1, (makeTemp P r y s).2.1, { (makeTemp P r y s).2.2 with env := e }) := by
  unfold makeTemp
  have : (St.top { s with env := e }) = s.top := rfl
  rw [this]
  cases r with
  | none => rfl
  | some r =>
    simp only
    generalize applyReq P s.top.conf r = x
    obtain ⟨er, c, n⟩ := x
    cases er with
    | some er => rfl
    | none =>
      simp only
      split
      · rw [saveCfg_env]
      · rfl

theorem run_env (P : Py) (R : Raises) (hR : ∀ o s e, R o { s with env := e } = R o s) (p : Prog) (hg : p.noGet) (hv : p.noEnv)
    (s : St) (e : Env) : run P R p { s with env := e } = ((run P R p s).1, { (run P R p s).2 with env := e }) := by
  induction p generalizing s with
  | skip => rfl
  | raise => rfl
  | act a =>
    cases a with
    | set r =>
      show set P R r _ = ((set P R r s).1, { (set P R r s).2 with env := e })
      unfold set
      have : (St.top { s with env := e }) = s.top := rfl
      rw [this]
      generalize applyReq P s.top.conf r = x
      obtain ⟨er, c, n⟩ := x
      cases er with
      | some er => simp only; rw [setTop_with_env]
      | none => simp only; rw [setTop_with_env]; exact changedN_env P R hR n _ e
    | reset n =>
      show reset P R n _ = ((reset P R n s).1, { (reset P R n s).2 with env := e })
      unfold reset
      have : (St.top { s with env := e }) = s.top := rfl
      cases n with
      | none => simp only; rw [setTop_with_env]; exact changed_env P R hR _ e
      | some n =>
        simp only
        cases DEFAULTS P n with
        | none => rfl
        | some v => simp only; rw [this, setTop_with_env]; exact changed_env P R hR _ e
    | get n => exact absurd hg (by simp [Prog.noGet])
    | autosave b => rfl
    | onChange o => rfl
    | setEnv n v => exact absurd hv (by simp [Prog.noEnv])
  | seq p q ihp ihq =>
    unfold run
    rw [ihp hg.1 hv.1]
    generalize run P R p s = x
    obtain ⟨r, s'⟩ := x
    cases r with
    | some r => rfl
    | none => exact ihq hg.2 hv.2 s'
  | catch_ p q ihp ihq =>
    unfold run
    rw [ihp hg.1 hv.1]
    generalize run P R p s = x
    obtain ⟨r, s'⟩ := x
    cases r with
    | some r => exact ihq hg.2 hv.2 s'
    | none => rfl
  | temp r y b ih =>
    unfold run
    rw [makeTemp_env]
    generalize makeTemp P r y s = m
    obtain ⟨er, t, s1⟩ := m
    cases er with
    | some er => rfl
    | none =>
      simp only [notify]
      have h1 := notifyL_env R hR s1.callbacks { s1 with stack := t :: s1.stack } e
      simp only at h1
      rw [h1]
      generalize notifyL R s1.callbacks { s1 with stack := t :: s1.stack } = n
      obtain ⟨er, s2⟩ := n
      cases er with
      | some er => rfl
      | none =>
        simp only
        rw [ih hg hv s2]
        generalize run P R b s2 = z
        obtain ⟨er, s3⟩ := z
        simp only
        have h2 := notifyL_env R hR s3.callbacks { s3 with stack := s3.stack.tail } e
        simp only at h2
        rw [h2]
        generalize notifyL R s3.callbacks { s3 with stack := s3.stack.tail } = w
        obtain ⟨er', s4⟩ := w
        cases er' <;> rfl

/-- Whatever is set, reset or made temporary while variables are set acts on the configuration as if they were not: taking
the variables away afterwards gives the state of a run that never had them. -/
theorem C17_removed (P : Py) (R : Raises) (hR : ∀ o s e, R o { s with env := e } = R o s) (p : Prog) (hg : p.noGet) (hv : p.noEnv)
    (s : St) (name : String) :
    ({ (run P R p s).2 with env := fun _ => none } : St).view P name = (run P R p { s with env := fun _ => none }).2.view P name := by
  have h := run_env P R hR p hg hv s (fun _ => none)
  rw [h]

/-- The variables of different options are different. -/
theorem C17_names_apart (a b : String) (ra rb : Rule) (ha : ruleOf a = some ra) (hb : ruleOf b = some rb)
    (h : envName a = envName b) : a = b := by
  have hall : ∀ a ∈ SORTED, ∀ b ∈ SORTED, envName a = envName b → a = b := by decide +kernel
  exact hall a (sorted_mem a ra ha) b (sorted_mem b rb hb) h

/-- Setting the variable of one option changes no other option. -/
theorem C17_others (P : Py) (s : St) (a b : String) (ra : Rule) (ha : ruleOf a = some ra) (hab : a ≠ b) (t : Option (List Char)) :
    ({ s with env := fun m => if m = envName a then t else s.env m } : St).view P b = s.view P b := by
  cases hb : ruleOf b with
  | none =>
    unfold St.view getConf
    rw [(option_none_iff P b).2 hb]
  | some rb =>
    have : envName b ≠ envName a := fun h => hab (C17_names_apart a b ra rb ha hb h.symm)
    unfold St.view getConf
    simp only [this, if_false]
    rfl

/-- A program that sets or removes the variable of an option: the option is then the conversion of that text, or the configured value,
and every other option is as before. -/
theorem C17_when_set (P : Py) (R : Raises) (s : St) (a : String) (ra : Rule) (ha : ruleOf a = some ra) (v : Option (List Char)) :
    (run P R (.act (.setEnv (envName a) v)) s).1 = none ∧
    (run P R (.act (.setEnv (envName a) v)) s).2.view P a =
      (match v with
       | some t => (match ra.applyEnv P t with | some w => .ok w | none => .error .value)
       | none => ({ s with env := fun _ => none } : St).view P a) ∧
    ∀ b, b ≠ a → (run P R (.act (.setEnv (envName a) v)) s).2.view P b = s.view P b := by
  refine ⟨rfl, ?_, fun b hb => C17_others P s a b ra ha (Ne.symm hb) v⟩
  cases v with
  | some t => exact C17_variable_wins P _ a ra t ha (if_pos rfl)
  | none =>
    show St.view P { s with env := fun m => if m = envName a then none else s.env m } a = _
    unfold St.view getConf
    simp only [if_true]
    rfl

example (P : Py) (R : Raises) (s : St) : (run P R (.act (.setEnv (envName "cache-policy") none)) s).2.view P "number-of-download-threads" =
    s.view P "number-of-download-threads" :=
  (C17_when_set P R s "cache-policy" _ rfl none).2.2 _ (by decide)

example : envName "cache-policy" = "EARTHKIT_REGRID_CACHE_POLICY".toList := by decide +kernel
example : ({ fresh with env := fun m => if m = envName "maximum-cache-size" then some "3M".toList else none } : St).view py "maximum-cache-size"
    = .ok (.int 3145728) := by decide +kernel
example : (Prog.temp (some (.dict [("cache-policy", .str "off".toList)])) none (.act (.reset none))).noGet := by simp [Prog.noGet]

/-! ### C18: a rejected set -/

/-- One name: a refused value or an unknown name leaves the whole state as it was. -/
theorem C18_single_partial (P : Py) (R : Raises) (s s' : St) (name : String) (args : List V) (kw : Bool) (e : Err)
    (h : set P R (.pos name args kw) s = (some e, s')) (he : e ≠ .observer) : s' = s := by
  rcases set_result P R (.pos name args kw) s with ⟨e', h1, h2⟩ | ⟨_, h2⟩
  · rw [h2] at h
    have : (applyReq P s.top.conf (.pos name args kw)).2.1 = s.top.conf := by
      simp only [applyReq]
      cases hs : setOne P s.top.conf name args kw with
      | error e => rfl
      | ok c =>
        simp only [applyReq, hs] at h1
        cases h1
    rw [this, setTop_top] at h
    cases h; rfl
  · rw [h2] at h
    have := changedN_err P R _ _ e (by rw [h])
    exact absurd this he

/-- Dict or keywords: nothing is written to any file and no observer is called. -/
theorem C18_not_saved (P : Py) (R : Raises) (s s' : St) (req : Req) (e : Err)
    (h : set P R req s = (some e, s')) (he : e ≠ .observer) :
    s'.files = s.files ∧ s'.log = s.log ∧ ∃ c, s' = s.setTop c := by
  rcases set_result P R req s with ⟨e', _, h2⟩ | ⟨_, h2⟩
  · rw [h2] at h
    cases h
    exact ⟨(setTop_env _ _).2.2.2.1, (setTop_env _ _).2.2.1, _, rfl⟩
  · rw [h2] at h
    exact absurd (changedN_err P R _ _ e (by rw [h])) he

/-- A dict is refused exactly if one of its pairs is not acceptable. -/
theorem C18_refused_iff (P : Py) (R : Raises) (s : St) (kvs : List (String × V)) :
    (∃ e, (set P R (.dict kvs) s).1 = some e ∧ e ≠ .observer) ↔ ∃ kv ∈ kvs, ¬ Acceptable P kv.1 kv.2 := by
  have hiff := setMany_ok_iff P kvs s.top.conf
  have herr := setMany_err P kvs s.top.conf
  have hx := changedN_err P R 1
  unfold set applyReq
  simp only
  generalize setMany P s.top.conf kvs = x at *
  obtain ⟨e, c⟩ := x
  cases e with
  | some e =>
    simp only [reduceCtorEq, false_iff, Classical.not_forall] at hiff
    obtain ⟨kv, hkv, hn⟩ := hiff
    exact iff_of_true ⟨e, rfl, by simpa using herr⟩ ⟨kv, hkv, hn⟩
  | none =>
    have hall := hiff.1 rfl
    refine iff_of_false ?_ ?_
    · rintro ⟨e, h1, h2⟩; exact h2 (hx _ _ h1)
    · rintro ⟨kv, hkv, hn⟩; exact hn (hall kv hkv)

/-- With several names it is not atomic: the pairs before the refused one stay set. -/
theorem C18_refuted : ∃ kvs s', set py quiet (.dict kvs) fresh = (some .value, s') ∧
    fresh.view py "cache-policy" = .ok (.str "user".toList) ∧ s'.view py "cache-policy" = .ok (.str "off".toList) := by
  refine ⟨[("cache-policy", .str "off".toList), ("maximum-cache-size", .str "big".toList)], _, rfl, ?_, ?_⟩ <;> decide +kernel

example : (set py quiet (.pos "cache-policy" [.str "on".toList] false) fresh).1 = some .value := by decide +kernel

/-! ### C19: temporary configuration is undone -/

/-- Leaving the block, normally or not: the objects that were there on entry are there, untouched; on top of them is one object
for every entry inside that failed because an observer raised. -/
theorem C19_layers (P : Py) (R : Raises) (r : Option Req) (y : Option String) (b : Prog) (s : St) :
    ∃ extra, (run P R (.temp r y b) s).2.root = s.root ∧ (run P R (.temp r y b) s).2.stack = extra ++ s.stack ∧
      (run P R (.temp r y b) s).2.failedEntries = s.failedEntries + extra.length := by
  unfold run
  have hm := makeTemp_core P r y s
  generalize makeTemp P r y s = m at *
  obtain ⟨e, t, s1⟩ := m
  simp only at hm
  cases e with
  | some e => exact ⟨[], hm.root, hm.stack, hm.failed⟩
  | none =>
    simp only [notify]
    have hn := (notifyL_core R s1.callbacks { s1 with stack := t :: s1.stack }).1
    generalize notifyL R s1.callbacks { s1 with stack := t :: s1.stack } = n at *
    obtain ⟨e, s2⟩ := n
    simp only at hn
    cases e with
    | some e =>
      refine ⟨[t], ?_, ?_, ?_⟩
      · simp only; rw [hn.root]; exact hm.root
      · simp only; rw [hn.stack]; simp [hm.stack]
      · simp only; rw [hn.failed]; simp [hm.failed]
    | none =>
      simp only
      have hb := run_frame P R b s2
      generalize run P R b s2 = z at *
      obtain ⟨e, s3⟩ := z
      simp only at hb ⊢
      have hx := (notifyL_core R s3.callbacks { s3 with stack := s3.stack.tail }).1
      generalize notifyL R s3.callbacks { s3 with stack := s3.stack.tail } = w at *
      obtain ⟨e', s4⟩ := w
      obtain ⟨c, ex, h1, h2, h3⟩ := (Frame.of_core hn).trans hb
      simp only [St.setTop] at h1 h2 h3 hx
      have h4 : s4.root = s.root ∧ s4.stack = (ex ++ [(⟨c, t.yaml⟩ : Cfg)]).tail ++ s.stack ∧
          s4.failedEntries = s.failedEntries + (ex ++ [(⟨c, t.yaml⟩ : Cfg)]).tail.length := by
        refine ⟨?_, ?_, ?_⟩
        · rw [hx.root]; simp only; rw [h1]; exact hm.root
        · rw [hx.stack]
          simp only
          rw [h2, hm.stack]
          cases ex <;> simp
        · rw [hx.failed]; simp only; rw [h3, hm.failed]
          cases ex <;> simp
      cases e' with
      | some e' => exact ⟨_, h4⟩
      | none => exact ⟨_, h4⟩

/-- If no entry failed that way, every option reads as on entry. -/
theorem C19_restored_partial (P : Py) (R : Raises) (r : Option Req) (y : Option String) (b : Prog) (s s' : St) (e : Option Err)
    (h : run P R (.temp r y b) s = (e, s')) (hf : s'.failedEntries = s.failedEntries) :
    s'.root = s.root ∧ s'.stack = s.stack ∧
      ∀ name, s'.env (envName name) = s.env (envName name) → s'.view P name = s.view P name := by
  obtain ⟨ex, h1, h2, h3⟩ := C19_layers P R r y b s
  rw [h] at h1 h2 h3
  simp only at h1 h2 h3
  have : ex = [] := List.eq_nil_of_length_eq_zero (by omega)
  subst this
  have hst : s'.stack = s.stack := by simpa using h2
  refine ⟨h1, hst, ?_⟩
  intro name hn
  have ht : s'.top = s.top := by unfold St.top; rw [h1, hst]
  unfold St.view getConf
  rw [ht, hn]

/-- The user's own configuration object is never changed inside a block, whatever happens. -/
theorem C19_root_untouched (P : Py) (R : Raises) (r : Option Req) (y : Option String) (b : Prog) (s : St) :
    (run P R (.temp r y b) s).2.root = s.root := (C19_layers P R r y b s).choose_spec.1

theorem frame_ne_nil {s s' : St} (h : Frame s s') (hs : s.stack ≠ []) : s'.stack ≠ [] := by
  obtain ⟨c, ex, _, h2, _⟩ := h
  rw [h2]
  rcases setTop_cases s c with ⟨h, _⟩ | ⟨t, ts, _, _, h⟩
  · exact absurd h hs
  · rw [h]; simp

theorem notifyL_keeps (R : Raises) (os : List Nat) (s : St) : (notifyL R os s).2.files = s.files ∧ (notifyL R os s).2.stack = s.stack :=
  ⟨(notifyL_core R os s).2, (notifyL_core R os s).1.stack⟩

theorem makeTemp_files (P : Py) (r : Option Req) (y : Option String) (s : St) (p : String) (hy : y ≠ some p) :
    (makeTemp P r y s).2.2.files p = s.files p := by
  unfold makeTemp
  cases r with
  | none => rfl
  | some r =>
    simp only
    generalize applyReq P s.top.conf r = x
    obtain ⟨er, c, n⟩ := x
    cases er with
    | some er => rfl
    | none =>
      simp only
      split
      · exact saveCfg_files P _ s p hy
      · rfl

/-- Inside a block no path is written that is not the `config_yaml` of an enclosing block. -/
theorem run_files (P : Py) (R : Raises) (q : String) (p : Prog) (hp : p.avoids q) (s : St)
    (hs : s.stack ≠ [] ∨ ∃ r y b, p = .temp r y b) (hy : ∀ t ∈ s.stack, t.yaml ≠ some q) :
    (run P R p s).2.files q = s.files q ∧ ∀ t ∈ (run P R p s).2.stack, t.yaml ≠ some q := by
  have htop : ∀ (s : St) (c : Conf), s.stack ≠ [] → (∀ t ∈ s.stack, t.yaml ≠ some q) →
      (s.setTop c).top.yaml ≠ some q ∧ ∀ t ∈ (s.setTop c).stack, t.yaml ≠ some q := by
    intro s c h1 h2
    rcases setTop_cases s c with ⟨h, _⟩ | ⟨t, ts, h, _, h'⟩
    · exact absurd h h1
    · refine ⟨?_, ?_⟩
      · unfold St.top; rw [h']; exact h2 t (by simp [h])
      · intro u hu
        rw [h'] at hu
        rcases List.mem_cons.1 hu with rfl | hu
        · exact h2 t (by simp [h])
        · exact h2 u (by rw [h]; exact List.mem_cons_of_mem _ hu)
  induction p generalizing s with
  | skip => exact ⟨rfl, hy⟩
  | raise => exact ⟨rfl, hy⟩
  | act a =>
    have hs' : s.stack ≠ [] := by
      rcases hs with h | ⟨r, y, b, h⟩
      · exact h
      · cases h
    clear hs
    cases a with
    | set req =>
      show (set P R req s).2.files q = _ ∧ ∀ t ∈ (set P R req s).2.stack, _
      rcases set_result P R req s with ⟨e, _, h⟩ | ⟨_, h⟩
      · rw [h]; exact ⟨by simp only; rw [(setTop_env _ _).2.2.2.1], (htop s _ hs' hy).2⟩
      · rw [h]
        obtain ⟨k1, k2⟩ := htop s (applyReq P s.top.conf req).2.1 hs' hy
        refine ⟨?_, ?_⟩
        · rw [changedN_files P R _ _ q k1, (setTop_env _ _).2.2.2.1]
        · rw [(changedN_core P R _ _).stack]; exact k2
    | reset n =>
      show (reset P R n s).2.files q = _ ∧ ∀ t ∈ (reset P R n s).2.stack, _
      have key : ∀ c, (changed P R (s.setTop c)).2.files q = s.files q ∧ ∀ t ∈ (changed P R (s.setTop c)).2.stack, t.yaml ≠ some q := by
        intro c
        obtain ⟨k1, k2⟩ := htop s c hs' hy
        refine ⟨?_, ?_⟩
        · rw [changed_files P R _ q k1, (setTop_env _ _).2.2.2.1]
        · rw [(changed_core P R _).stack]; exact k2
      unfold reset
      split
      · exact key _
      · split
        · exact ⟨rfl, hy⟩
        · exact key _
    | get n =>
      simp only [run, act]
      split <;> exact ⟨rfl, hy⟩
    | autosave b => exact ⟨rfl, hy⟩
    | onChange o => exact ⟨rfl, hy⟩
    | setEnv n v => exact ⟨rfl, hy⟩
  | seq p1 p2 ih1 ih2 =>
    have hs : s.stack ≠ [] := by
      rcases hs with h | ⟨r, y, b, h⟩
      · exact h
      · cases h
    have h1 := ih1 hp.1 s (Or.inl hs) hy
    have hf := frame_ne_nil (run_frame P R p1 s) hs
    unfold run
    generalize run P R p1 s = x at *
    obtain ⟨e, s'⟩ := x
    cases e with
    | some e => exact h1
    | none =>
      obtain ⟨k1, k2⟩ := ih2 hp.2 s' (Or.inl hf) h1.2
      exact ⟨k1.trans h1.1, k2⟩
  | catch_ p1 p2 ih1 ih2 =>
    have hs : s.stack ≠ [] := by
      rcases hs with h | ⟨r, y, b, h⟩
      · exact h
      · cases h
    have h1 := ih1 hp.1 s (Or.inl hs) hy
    have hf := frame_ne_nil (run_frame P R p1 s) hs
    unfold run
    generalize run P R p1 s = x at *
    obtain ⟨e, s'⟩ := x
    cases e with
    | some e =>
      obtain ⟨k1, k2⟩ := ih2 hp.2 s' (Or.inl hf) h1.2
      exact ⟨k1.trans h1.1, k2⟩
    | none => exact h1
  | temp r y b ih =>
    unfold run
    have hm := makeTemp_core P r y s
    have hmf := makeTemp_files P r y s q hp.1
    have hmy := makeTemp_yaml P r y s
    generalize makeTemp P r y s = m at *
    obtain ⟨e, t, s1⟩ := m
    simp only at hm hmf hmy
    cases e with
    | some e => exact ⟨hmf, by simp only; rw [hm.stack]; exact hy⟩
    | none =>
      simp only [notify]
      have hn := notifyL_keeps R s1.callbacks { s1 with stack := t :: s1.stack }
      generalize notifyL R s1.callbacks { s1 with stack := t :: s1.stack } = n at *
      obtain ⟨e, s2⟩ := n
      simp only at hn
      have hy2 : ∀ u ∈ s2.stack, u.yaml ≠ some q := by
        rw [hn.2]
        intro u hu
        rcases List.mem_cons.1 hu with rfl | hu
        · rw [hmy]; exact hp.1
        · rw [hm.stack] at hu; exact hy u hu
      cases e with
      | some e => exact ⟨by simp only; rw [hn.1, hmf], hy2⟩
      | none =>
        simp only
        have hb := ih hp.2 s2 (Or.inl (by rw [hn.2]; simp)) hy2
        generalize run P R b s2 = z at *
        obtain ⟨e, s3⟩ := z
        simp only at hb ⊢
        have hx := notifyL_keeps R s3.callbacks { s3 with stack := s3.stack.tail }
        generalize notifyL R s3.callbacks { s3 with stack := s3.stack.tail } = w at *
        obtain ⟨e', s4⟩ := w
        simp only at hx
        have h4 : s4.files q = s.files q ∧ ∀ u ∈ s4.stack, u.yaml ≠ some q := by
          refine ⟨by rw [hx.1, hb.1, hn.1, hmf], ?_⟩
          rw [hx.2]
          exact fun u hu => hb.2 u (List.mem_of_mem_tail hu)
        cases e' with
        | some e' => exact h4
        | none => exact h4

/-- The user's config file is not written in a block, also with observers that raise, as long as no block is given that very
path as its own `config_yaml`. -/
theorem C19_file (P : Py) (R : Raises) (path : String) (r : Option Req) (y : Option String) (b : Prog)
    (hp : (Prog.temp r y b).avoids path) (s : St) (hs : ∀ t ∈ s.stack, t.yaml ≠ some path) :
    (run P R (.temp r y b) s).2.files path = s.files path :=
  (run_files P R path _ hp s (Or.inr ⟨r, y, b, rfl⟩) hs).1

/-- With an observer that raises on a nested entry (here: the weights cache refusing a size of 0) the outer exit takes the wrong
object away: the temporary value outlives its block. -/
theorem C19_refuted : ∃ inner outer s', run py memObserver (.temp (some outer) none (.catch_ (.temp (some inner) none .skip) .skip))
      { fresh with callbacks := [0] } = (none, s') ∧
    fresh.view py "check-out-of-date-urls" = .ok (.bool false) ∧ s'.view py "check-out-of-date-urls" = .ok (.bool true) := by
  refine ⟨.kw [("maximum_weights_memory_cache_size", .int 0)], .kw [("check_out_of_date_urls", .bool true)],
    (run py memObserver (.temp (some (.kw [("check_out_of_date_urls", .bool true)])) none (.catch_ (.temp (some (.kw [("maximum_weights_memory_cache_size", .int 0)])) none .skip) .skip))
      { fresh with callbacks := [0] }).2, ?_, ?_, ?_⟩
  · have h : (run py memObserver (.temp (some (.kw [("check_out_of_date_urls", .bool true)])) none (.catch_ (.temp (some (.kw [("maximum_weights_memory_cache_size", .int 0)])) none .skip) .skip))
      { fresh with callbacks := [0] }).1 = none := by decide +kernel
    exact Prod.ext h rfl
  · decide +kernel
  · decide +kernel

example : (run py quiet (.temp (some (.kw [("cache_policy", .str "off".toList)])) none (.seq (.act (.reset none)) .raise)) fresh).1 = some .user := by
  decide +kernel

/-! ### C20: a failing temporary -/

theorem run_temp_refused (P : Py) (R : Raises) (req : Req) (y : Option String) (b : Prog) (s : St) (e : Err)
    (h : (applyReq P s.top.conf req).1 = some e) : run P R (.temp (some req) y b) s = (some e, s) := by
  unfold run makeTemp
  simp only
  generalize applyReq P s.top.conf req = x at *
  obtain ⟨er, c, n⟩ := x
  simp only at h
  subst h
  rfl

/-- Refused arguments (one name, a dict, keywords) leave the state exactly as it was. -/
theorem C20_refused_partial (P : Py) (R : Raises) (y : Option String) (b : Prog) (s : St) :
    (∀ name v, ¬ Acceptable P name v → ∃ e, run P R (.temp (some (.pos name [v] false)) y b) s = (some e, s)) ∧
    (∀ kvs : List (String × V), (∃ kv ∈ kvs, ¬ Acceptable P kv.1 kv.2) → ∃ e, run P R (.temp (some (.dict kvs)) y b) s = (some e, s)) ∧
    (∀ kvs : List (String × V), (∃ kv ∈ kvs, (ruleOf kv.1).isSome ∧ ¬ Acceptable P kv.1 kv.2) →
      ∃ e, run P R (.temp (some (.kw (kvs.map (fun kv => (keywordName kv.1, kv.2))))) y b) s = (some e, s)) := by
  have hmany : ∀ (kvs : List (String × V)) c, (∃ kv ∈ kvs, ¬ Acceptable P kv.1 kv.2) → ∃ e, (setMany P c kvs).1 = some e := by
    intro kvs c ⟨kv, h1, h2⟩
    cases h : (setMany P c kvs).1 with
    | some e => exact ⟨e, rfl⟩
    | none => exact absurd ((setMany_ok_iff P kvs c).1 h kv h1) h2
  refine ⟨?_, ?_, ?_⟩
  · intro name v hv
    cases hs : setOne P s.top.conf name [v] false with
    | error e => exact ⟨e, run_temp_refused P R _ y b s e (by simp [applyReq, hs])⟩
    | ok c =>
      obtain ⟨r, v', w, x, h1, h2, _, h4, _⟩ := setOne_ok P _ _ name _ _ hs
      cases h2
      exact absurd ⟨r, w, h1, h4⟩ hv
  · intro kvs h
    obtain ⟨e, he⟩ := hmany kvs s.top.conf h
    refine ⟨e, run_temp_refused P R _ y b s e ?_⟩
    unfold applyReq
    simp only
    generalize setMany P s.top.conf kvs = x at *
    obtain ⟨er, c⟩ := x
    simp only at he
    subst he
    rfl
  · rintro kvs ⟨kv, h1, h2, h3⟩
    have hne : kvs.map (fun kv => (keywordName kv.1, kv.2)) ≠ [] := by
      simp only [ne_eq, List.map_eq_nil_iff]
      rintro rfl
      simp at h1
    obtain ⟨r, hr⟩ := Option.isSome_iff_exists.1 h2
    obtain ⟨e, he⟩ := hmany ((kvs.map (fun kv => (keywordName kv.1, kv.2))).map (fun p => (dashed p.1, p.2))) s.top.conf
      ⟨kv, by
        rw [List.map_map]
        exact List.mem_map.2 ⟨kv, h1, by simp [dashed_keyword kv.1 r hr]⟩, h3⟩
    refine ⟨e, run_temp_refused P R _ y b s e ?_⟩
    rw [applyReq_kw P _ _ hne]
    exact he

/-- If an observer refuses the new configuration on entry, it stays in force: `temporary(maximum_weights_memory_cache_size=0)`
raises, and afterwards the size is 0, for the rest of the process. -/
theorem C20_refuted : ∃ req s', run py memObserver (.temp (some req) none .skip) { fresh with callbacks := [0] } = (some .observer, s') ∧
    fresh.view py "maximum-weights-memory-cache-size" = .ok (.int 524288000) ∧
    s'.view py "maximum-weights-memory-cache-size" = .ok (.int 0) := by
  refine ⟨.kw [("maximum_weights_memory_cache_size", .int 0)],
    (run py memObserver (.temp (some (.kw [("maximum_weights_memory_cache_size", .int 0)])) none .skip) { fresh with callbacks := [0] }).2, ?_, ?_, ?_⟩
  · have h : (run py memObserver (.temp (some (.kw [("maximum_weights_memory_cache_size", .int 0)])) none .skip) { fresh with callbacks := [0] }).1
        = some .observer := by decide +kernel
    exact Prod.ext h rfl
  · decide +kernel
  · decide +kernel

example : ¬ Acceptable py "cache-policy" (.str "on".toList) := by
  rintro ⟨r, w, h1, h2⟩
  simp only [ruleOf, Option.some.injEq] at h1
  subst h1
  simp [Rule.apply, py] at h2

/-- `C17_variable_wins` -/
example : ({ fresh with env := fun m => if m = envName "cache-policy" then some "off".toList else none } : St).view py "cache-policy" =
    .ok (.str "off".toList) := C17_variable_wins py _ "cache-policy" _ "off".toList rfl (by simp)

/-- A program with a block and a failing statement in it. -/
def someProg : Prog := .catch_ (.temp (some (.dict [("cache-policy", .str "off".toList)])) none (.seq (.act (.reset none)) .raise))
  (.act (.set (.pos "url-download-timeout" [.int 5] false)))

/-- `C17_removed` -/
example : ({ (run py quiet someProg { fresh with env := fun _ => some "1".toList }).2 with env := fun _ => none } : St).view py "url-download-timeout" =
    (run py quiet someProg { ({ fresh with env := fun _ => some "1".toList } : St) with env := fun _ => none }).2.view py "url-download-timeout" :=
  C17_removed py quiet (fun _ _ _ => rfl) someProg (by simp [someProg, Prog.noGet]) (by simp [someProg, Prog.noEnv]) _ _

/-- `C17_names_apart`: only an option itself has its variable. -/
example (b : String) (r : Rule) (hb : ruleOf b = some r) (h : envName b = "EARTHKIT_REGRID_CACHE_POLICY".toList) : b = "cache-policy" :=
  C17_names_apart b "cache-policy" r _ hb rfl (h.trans (by decide +kernel))

/-- `C17_others` -/
example : ({ fresh with env := fun m => if m = envName "cache-policy" then some "off".toList else fresh.env m } : St).view py "url-download-timeout" =
    fresh.view py "url-download-timeout" := C17_others py fresh "cache-policy" "url-download-timeout" _ rfl (by decide) (some "off".toList)

/-- `C18_single_partial` -/
example : (set py quiet (.pos "cache-policy" [.str "on".toList] false) fresh).2 = fresh :=
  C18_single_partial py quiet fresh _ "cache-policy" [.str "on".toList] false .value (Prod.ext (by decide +kernel) rfl) (by decide)

/-- `C18_not_saved`: the first of two values was assigned, but nothing was saved and nobody was told. -/
example : (set py quiet (.dict [("cache-policy", .str "off".toList), ("url-download-timeout", .str "x".toList)]) { fresh with callbacks := [1] }).2.log = [] :=
  (C18_not_saved py quiet { fresh with callbacks := [1] } _ (.dict [("cache-policy", .str "off".toList), ("url-download-timeout", .str "x".toList)]) .value
    (Prod.ext (by decide +kernel) rfl) (by decide)).2.1

/-- `C19_restored_partial` -/
example : (run py quiet (.temp (some (.kw [("cache_policy", .str "off".toList)])) none (.seq (.act (.reset none)) .raise)) fresh).2.view py "cache-policy" =
    fresh.view py "cache-policy" :=
  (C19_restored_partial py quiet (some (.kw [("cache_policy", .str "off".toList)])) none (.seq (.act (.reset none)) .raise) fresh _ _ rfl
    (by decide +kernel)).2.2 _ rfl

/-- `C19_file` -/
example : (run py quiet (.temp (some (.kw [("cache_policy", .str "off".toList)])) (some "/other") (.act (.set (.pos "url-download-timeout" [.int 5] false))))
    fresh).2.files "/cfg" = fresh.files "/cfg" :=
  C19_file py quiet "/cfg" _ _ _ (by simp [Prog.avoids]) fresh (by intro t ht; cases ht)

/-- `C20_refused_partial` -/
example : ∃ e, run py quiet (.temp (some (.pos "no-such-option" [.int 1] false)) none .skip) fresh = (some e, fresh) :=
  (C20_refused_partial py quiet none .skip fresh).1 "no-such-option" (.int 1) (by rintro ⟨r, w, h1, _⟩; cases h1)

end Verif.Config
