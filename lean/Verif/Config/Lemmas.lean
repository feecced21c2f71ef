import Verif.Config.Spec

namespace Verif.Config
open Verif.Humanize

theorem option_none_iff (P : Py) (name : String) : option P name = none ↔ ruleOf name = none := by
  unfold option OPTIONS ruleOf
  split <;> simp_all [List.lookup]
  repeat' split
  all_goals simp_all

/-- The table of the model, per rule. -/
theorem option_rule (P : Py) (name : String) (r : Rule) (h : ruleOf name = some r) :
    ∃ o, option P name = some o ∧ defaultOf P name = some o.default ∧
      match r with
      | .flag => o.kind = .bool ∧ o.getter = none ∧ o.validator = none
      | .text => o.kind = .str ∧ o.getter = none ∧ o.validator = none
      | .path => o.getter = some .asStr ∧ o.noneOk = true ∧ o.validator = none
      | .oneOf l => o.kind = .str ∧ o.getter = none ∧ o.validator = some l
      | .number u n => ∃ g, o.getter = some g ∧ o.noneOk = n ∧ o.validator = none ∧
          ((g = .asBytes ∧ u = byteUnits) ∨ (g = .asPercent ∧ u = percentUnits) ∨ (g = .asSeconds ∧ u = secondUnits)) := by
  unfold ruleOf at h
  split at h <;> (try cases h) <;> refine ⟨_, rfl, rfl, ?_⟩ <;> simp

theorem defaultOf_eq (P : Py) (name : String) : DEFAULTS P name = defaultOf P name := by
  unfold DEFAULTS
  cases h : ruleOf name with
  | none =>
    rw [(option_none_iff P name).2 h]
    unfold ruleOf at h
    unfold defaultOf
    split at h <;> simp_all
  | some r =>
    obtain ⟨o, h1, h2, _⟩ := option_rule P name r h
    rw [h1, h2]; rfl

theorem asNumber_ne_none (C : CharClass) (u : List (Char × Nat)) (t : List Char) : asNumber C u false (some t) ≠ .ok none := by
  unfold asNumber
  simp only [Option.isNone_some, Bool.and_false, Bool.false_eq_true, if_false]
  repeat' split
  all_goals simp

theorem convert_number (P : Py) (g : Getter) (n : Bool) (u : List (Char × Nat)) (v : V)
    (hg : (g = .asBytes ∧ u = byteUnits) ∨ (g = .asPercent ∧ u = percentUnits) ∨ (g = .asSeconds ∧ u = secondUnits)) :
    convert P (some g) n v = match (if v = .none ∧ n = true then some .none else numberOf P u (P.strOf v)) with
      | some w => .ok w
      | none => .error .value := by
  have key : ∀ f, f = asNumber P.C u n → convert.num P n f v = match (if v = .none ∧ n = true then some .none else numberOf P u (P.strOf v)) with
      | some w => .ok w
      | none => .error .value := by
    rintro f rfl
    unfold convert.num
    by_cases h : v = .none ∧ n = true
    · rw [if_pos h, if_pos h]
      simp [asNumber, h.2]
    · rw [if_neg h, if_neg h]
      have : asNumber P.C u n (some (P.strOf v)) = asNumber P.C u false (some (P.strOf v)) := by simp [asNumber]
      unfold numberOf
      rw [this]
      have hne := asNumber_ne_none P.C u (P.strOf v)
      generalize asNumber P.C u false (some (P.strOf v)) = x at *
      match x with
      | .error e => rfl
      | .ok none => exact absurd rfl hne
      | .ok (some n) => rfl
  rcases hg with ⟨rfl, rfl⟩ | ⟨rfl, rfl⟩ | ⟨rfl, rfl⟩
  · exact key _ rfl
  · exact key _ rfl
  · exact key _ rfl

/-! ### Setting one option -/

theorem set_self (c : Conf) (k : String) (v : V) : (c.set k v) k = some v := by simp [Conf.set]
theorem set_other (c : Conf) (k k' : String) (v : V) (h : k' ≠ k) : (c.set k v) k' = c k' := by simp [Conf.set, h]

/-- Setting a documented option succeeds exactly when the rule accepts the value; what is stored then reads as the rule says. -/
theorem setOne_rule (P : Py) (c : Conf) (name : String) (r : Rule) (h : ruleOf name = some r) (v : V) :
    match r.apply P v with
    | some w => ∃ x, setOne P c name [v] false = .ok (c.set name x) ∧
        ∀ o, option P name = some o → convert P o.getter o.noneOk x = .ok w
    | none => setOne P c name [v] false = .error .value := by
  obtain ⟨o, ho, _, hr⟩ := option_rule P name r h
  have hs : setOne P c name [v] false = (do
      let v ← convertIn P o v
      validate o v
      return c.set name v) := by unfold setOne; rw [ho]
  rw [hs]
  cases r with
  | flag =>
    obtain ⟨h1, h2, h3⟩ := hr
    refine ⟨.bool (truthy P v), by simp [convertIn, h1, h2, validate, h3, bind, Except.bind, pure, Except.pure], ?_⟩
    intro o' ho'; rw [ho] at ho'; cases ho'; simp [convert, h2]
  | text =>
    obtain ⟨h1, h2, h3⟩ := hr
    refine ⟨.str (P.strOf v), by simp [convertIn, h1, h2, validate, h3, bind, Except.bind, pure, Except.pure], ?_⟩
    intro o' ho'; rw [ho] at ho'; cases ho'; simp [convert, h2]
  | path =>
    obtain ⟨h1, h2, h3⟩ := hr
    have hc : convert P (some .asStr) true v = .ok (if v = .none then .none else .str (P.strOf v)) := by
      simp only [convert, and_true]; split <;> rfl
    have : (Rule.path.apply P v) = some (if v = .none then .none else .str (P.strOf v)) := by
      unfold Rule.apply; simp only; split <;> rfl
    rw [this]
    refine ⟨v, by simp [convertIn, h1, h2, validate, h3, hc, bind, Except.bind, pure, Except.pure], ?_⟩
    intro o' ho'; rw [ho] at ho'; cases ho'; rw [h1, h2]; exact hc
  | oneOf l =>
    obtain ⟨h1, h2, h3⟩ := hr
    have hap : (Rule.oneOf l).apply P v = if P.strOf v ∈ l then some (.str (P.strOf v)) else none := rfl
    rw [hap]
    by_cases hl : P.strOf v ∈ l
    · rw [if_pos hl]
      refine ⟨.str (P.strOf v), by simp [convertIn, h1, h2, validate, h3, hl, bind, Except.bind, pure, Except.pure], ?_⟩
      intro o' ho'; rw [ho] at ho'; cases ho'; simp [convert, h2]
    · rw [if_neg hl]
      simp [convertIn, h1, h2, validate, h3, hl, bind, Except.bind]
  | number u n =>
    obtain ⟨g, h1, h2, h3, h4⟩ := hr
    have hc := convert_number P g n u v h4
    have hap : (Rule.number u n).apply P v = if v = .none ∧ n = true then some V.none else numberOf P u (P.strOf v) := rfl
    rw [hap]
    generalize (if v = .none ∧ n = true then some V.none else numberOf P u (P.strOf v)) = x at *
    cases x with
    | some w =>
      refine ⟨v, by simp [convertIn, h1, h2, validate, h3, hc, bind, Except.bind, pure, Except.pure], ?_⟩
      intro o' ho'; rw [ho] at ho'; cases ho'; rw [h1, h2]; exact hc
    | none => simp [convertIn, h1, h2, hc, bind, Except.bind]

theorem setOne_unknown (P : Py) (c : Conf) (name : String) (h : ruleOf name = none) (args : List V) (kw : Bool) :
    setOne P c name args kw = .error .key := by
  unfold setOne
  rw [(option_none_iff P name).2 h]

/-- Only the named option changes, and only if it is documented. -/
theorem setOne_ok (P : Py) (c c' : Conf) (name : String) (args : List V) (kw : Bool) (h : setOne P c name args kw = .ok c') :
    ∃ r v w x, ruleOf name = some r ∧ args = [v] ∧ kw = false ∧ r.apply P v = some w ∧ c' = c.set name x ∧
      ∀ o, option P name = some o → convert P o.getter o.noneOk x = .ok w := by
  cases hr : ruleOf name with
  | none => rw [setOne_unknown P c name hr] at h; cases h
  | some r =>
    obtain ⟨o, ho, _⟩ := option_rule P name r hr
    match args, kw with
    | [v], false =>
      have := setOne_rule P c name r hr v
      cases ha : r.apply P v with
      | none => rw [ha] at this; simp only at this; rw [this] at h; cases h
      | some w =>
        rw [ha] at this
        obtain ⟨x, h1, h2⟩ := this
        rw [h1] at h; cases h
        exact ⟨r, v, w, x, rfl, rfl, rfl, ha, rfl, h2⟩
    | [v], true => unfold setOne at h; rw [ho] at h; cases h
    | [], kw => unfold setOne at h; rw [ho] at h; cases h
    | _ :: _ :: _, kw => unfold setOne at h; rw [ho] at h; cases h

theorem setOne_error (P : Py) (c : Conf) (name : String) (args : List V) (kw : Bool) (e : Err)
    (h : setOne P c name args kw = .error e) : e ≠ .observer := by
  rintro rfl
  cases hr : ruleOf name with
  | none => rw [setOne_unknown P c name hr] at h; cases h
  | some r =>
    obtain ⟨o, ho, _⟩ := option_rule P name r hr
    match args, kw with
    | [v], false =>
      have := setOne_rule P c name r hr v
      cases ha : r.apply P v with
      | none => rw [ha] at this; simp only at this; rw [this] at h; cases h
      | some w => rw [ha] at this; obtain ⟨x, h1, _⟩ := this; rw [h1] at h; cases h
    | [v], true => unfold setOne at h; rw [ho] at h; cases h
    | [], kw => unfold setOne at h; rw [ho] at h; cases h
    | _ :: _ :: _, kw => unfold setOne at h; rw [ho] at h; cases h

/-! ### State -/

theorem setTop_top (s : St) : s.setTop s.top.conf = s := by
  unfold St.setTop St.top
  cases h : s.stack with
  | nil => cases s; simp_all
  | cons t ts => cases s; simp_all

theorem top_setTop (s : St) (c : Conf) : (s.setTop c).top = ⟨c, s.top.yaml⟩ := by
  unfold St.setTop St.top
  cases h : s.stack with
  | nil => simp
  | cons t ts => simp

/-- Everything but log and files. -/
structure SameCore (s s' : St) : Prop where
  root : s'.root = s.root
  stack : s'.stack = s.stack
  callbacks : s'.callbacks = s.callbacks
  autosave : s'.autosave = s.autosave
  env : s'.env = s.env
  writable : s'.writable = s.writable
  failed : s'.failedEntries = s.failedEntries

theorem SameCore.refl (s : St) : SameCore s s := ⟨rfl, rfl, rfl, rfl, rfl, rfl, rfl⟩
theorem SameCore.trans {a b c : St} (h : SameCore a b) (h' : SameCore b c) : SameCore a c :=
  ⟨h'.root.trans h.root, h'.stack.trans h.stack, h'.callbacks.trans h.callbacks, h'.autosave.trans h.autosave,
    h'.env.trans h.env, h'.writable.trans h.writable, h'.failed.trans h.failed⟩
theorem SameCore.top {s s' : St} (h : SameCore s s') : s'.top = s.top := by unfold St.top; rw [h.root, h.stack]

theorem saveCfg_core (P : Py) (c : Cfg) (s : St) : SameCore s (saveCfg P c s) := by
  unfold saveCfg
  split
  · exact .refl s
  · split
    · exact ⟨rfl, rfl, rfl, rfl, rfl, rfl, rfl⟩
    · exact .refl s

theorem saveCfg_log (P : Py) (c : Cfg) (s : St) : (saveCfg P c s).log = s.log := by
  unfold saveCfg
  split
  · rfl
  · split <;> rfl

theorem saveCfg_files (P : Py) (c : Cfg) (s : St) (p : String) (h : c.yaml ≠ some p) : (saveCfg P c s).files p = s.files p := by
  unfold saveCfg
  split
  · rfl
  · rename_i q hq
    split
    · have : p ≠ q := by rintro rfl; exact h hq
      simp [this]
    · rfl

theorem notifyL_core (R : Raises) (os : List Nat) (s : St) : SameCore s (notifyL R os s).2 ∧ (notifyL R os s).2.files = s.files := by
  induction os generalizing s with
  | nil => exact ⟨.refl s, rfl⟩
  | cons o os ih =>
    unfold notifyL
    simp only
    split
    · exact ⟨⟨rfl, rfl, rfl, rfl, rfl, rfl, rfl⟩, rfl⟩
    · obtain ⟨h1, h2⟩ := ih { s with log := s.log ++ [.called o s.top.conf] }
      exact ⟨⟨h1.root, h1.stack, h1.callbacks, h1.autosave, h1.env, h1.writable, h1.failed⟩, h2⟩

theorem notifyL_log (R : Raises) (os : List Nat) (s s' : St) (h : notifyL R os s = (none, s')) :
    s'.log = s.log ++ os.map (fun o => .called o s.top.conf) := by
  induction os generalizing s with
  | nil => cases h; simp
  | cons o os ih =>
    unfold notifyL at h
    simp only at h
    split at h
    · cases h
    · have := ih _ h
      rw [this]
      have : (St.top { s with log := s.log ++ [.called o s.top.conf] }) = s.top := rfl
      simp [this]

/-- The log only grows. -/
theorem notifyL_log_prefix (R : Raises) (os : List Nat) (s : St) : s.log <+: (notifyL R os s).2.log := by
  induction os generalizing s with
  | nil => exact List.prefix_rfl
  | cons o os ih =>
    unfold notifyL
    simp only
    split
    · exact List.prefix_append _ _
    · have := ih { s with log := s.log ++ [.called o s.top.conf] }
      exact List.IsPrefix.trans (List.prefix_append _ _) this

theorem notifyL_events (R : Raises) (os : List Nat) (s : St) (e : Event) (h : e ∈ (notifyL R os s).2.log) :
    e ∈ s.log ∨ ∃ o, e = .called o s.top.conf := by
  induction os generalizing s with
  | nil => exact Or.inl h
  | cons o os ih =>
    unfold notifyL at h
    simp only at h
    split at h
    · simp only [List.mem_append, List.mem_singleton] at h
      exact h.imp id (fun h => ⟨o, h⟩)
    · rcases ih _ h with h | ⟨o', h⟩
      · simp only [List.mem_append, List.mem_singleton] at h
        exact h.imp id (fun h => ⟨o, h⟩)
      · exact Or.inr ⟨o', h⟩

theorem notifyL_err (R : Raises) (os : List Nat) (s : St) (e : Err) (h : (notifyL R os s).1 = some e) : e = .observer := by
  induction os generalizing s with
  | nil => cases h
  | cons o os ih =>
    unfold notifyL at h
    simp only at h
    split at h
    · cases h; rfl
    · exact ih _ h

theorem changed_core (P : Py) (R : Raises) (s : St) : SameCore s (changed P R s).2 := by
  unfold changed notify
  split
  · exact (saveCfg_core P _ s).trans (notifyL_core R _ _).1
  · exact (notifyL_core R _ _).1

theorem changed_files (P : Py) (R : Raises) (s : St) (p : String) (h : s.top.yaml ≠ some p) :
    (changed P R s).2.files p = s.files p := by
  unfold changed notify
  split
  · rw [(notifyL_core R _ _).2, saveCfg_files P _ s p h]
  · rw [(notifyL_core R _ _).2]

theorem changed_log (P : Py) (R : Raises) (s s' : St) (h : changed P R s = (none, s')) :
    s'.log = s.log ++ s.callbacks.map (fun o => .called o s.top.conf) := by
  unfold changed notify at h
  split at h
  · have := notifyL_log R _ _ _ h
    rw [this, saveCfg_log, (saveCfg_core P s.top s).callbacks, (saveCfg_core P s.top s).top]
  · exact notifyL_log R _ _ _ h

theorem changed_events (P : Py) (R : Raises) (s : St) (e : Event) (h : e ∈ (changed P R s).2.log) :
    e ∈ s.log ∨ ∃ o, e = .called o s.top.conf := by
  unfold changed notify at h
  split at h
  · have := notifyL_events R _ _ _ h
    rw [saveCfg_log, (saveCfg_core P s.top s).top] at this
    exact this
  · exact notifyL_events R _ _ _ h

theorem changedN_core (P : Py) (R : Raises) (n : Nat) (s : St) : SameCore s (changedN P R n s).2 := by
  induction n generalizing s with
  | zero => exact .refl s
  | succ n ih =>
    unfold changedN
    have := changed_core P R s
    generalize changed P R s = x at *
    obtain ⟨e, s'⟩ := x
    cases e with
    | some e => exact this
    | none => exact this.trans (ih s')

theorem changedN_files (P : Py) (R : Raises) (n : Nat) (s : St) (p : String) (h : s.top.yaml ≠ some p) :
    (changedN P R n s).2.files p = s.files p := by
  induction n generalizing s with
  | zero => rfl
  | succ n ih =>
    unfold changedN
    have h1 := changed_core P R s
    have h2 := changed_files P R s p h
    generalize changed P R s = x at *
    obtain ⟨e, s'⟩ := x
    cases e with
    | some e => exact h2
    | none => simp only; rw [ih s' (by rw [h1.top]; exact h)]; exact h2

theorem changedN_events (P : Py) (R : Raises) (n : Nat) (s : St) (e : Event) (h : e ∈ (changedN P R n s).2.log) :
    e ∈ s.log ∨ ∃ o, e = .called o s.top.conf := by
  induction n generalizing s with
  | zero => exact Or.inl h
  | succ n ih =>
    unfold changedN at h
    have h1 := changed_core P R s
    have h2 := changed_events P R s e
    generalize changed P R s = x at *
    obtain ⟨r, s'⟩ := x
    cases r with
    | some _ => exact h2 h
    | none =>
      rcases ih s' h with h | ⟨o, h⟩
      · exact h2 h
      · rw [h1.top] at h; exact Or.inr ⟨o, h⟩

theorem changedN_err (P : Py) (R : Raises) (n : Nat) (s : St) (e : Err) (h : (changedN P R n s).1 = some e) : e = .observer := by
  induction n generalizing s with
  | zero => cases h
  | succ n ih =>
    unfold changedN at h
    have h2 : ∀ e, (changed P R s).1 = some e → e = .observer := by
      intro e he
      unfold changed notify at he
      exact notifyL_err R _ _ e he
    generalize changed P R s = x at *
    obtain ⟨r, s'⟩ := x
    cases r with
    | some _ => exact h2 e h
    | none => exact ih s' h

end Verif.Config
