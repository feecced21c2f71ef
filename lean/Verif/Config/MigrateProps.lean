import Verif.Config.Props4

/-!
# Settings of older releases, whatever they hold (C77)
-/

namespace Verif.Config

/-- What a value of a settings file reads as: flags, texts and choices as they stand (a flag up to what python takes for the same value),
paths as text, numbers as the number meant; a text that is no number makes reading the option raise. -/
def InForce (P : Py) (r : Rule) (v : V) (res : Except Err V) : Prop :=
  match r with
  | .flag => ∃ u, res = .ok u ∧ SameValue v u
  | .text => res = .ok v
  | .oneOf _ => res = .ok v
  | .path => res = .ok (if v = .none then .none else .str (P.strOf v))
  | .number u n => (∀ w, (Rule.number u n).apply P v = some w → res = .ok w) ∧
      ((Rule.number u n).apply P v = none → ∃ e, res = .error e)

theorem pyEq_same (v d : V) : pyEq v d = true ↔ SameValue v d := by
  unfold pyEq SameValue
  cases v <;> cases d <;> first
    | exact decide_eq_true_iff
    | (rw [beq_iff_eq]; exact eq_comm)

theorem same_refl (v : V) : SameValue v v := (pyEq_same v v).1 (by cases v <;> simp [pyEq])

/-- What is saved and loaded again, for any values the file can hold: the same, or for a flag the default that python takes for the same. -/
theorem load_dump_any (P : Py) (c : Conf) (hs : ∀ name r v, ruleOf name = some r → c name = some v → safe P v = true)
    (name : String) (r : Rule) (hr : ruleOf name = some r) (v : V) (hv : c name = some v) :
    ∃ u, (load P (some (dump P c))).1 name = some u ∧ (u = v ∨ r = .flag ∧ SameValue v u ∧ defaultOf P name = some u) := by
  have hall : (dump P c).all (fun e => safe P e.2) = true := by
    rw [List.all_eq_true]
    intro e he
    unfold dump at he
    rcases List.mem_append.1 he with he | he
    · obtain ⟨m, hm, hm'⟩ := List.mem_filterMap.1 he
      unfold dumpOne at hm'
      split at hm'
      · split at hm'
        · cases hm'
        · rename_i o v ho hv _
          cases hm'
          cases hrm : ruleOf m with
          | none => rw [(option_none_iff P m).2 hrm] at ho; cases ho
          | some r => exact hs m r v hrm hv
      · cases hm'
    · simp at he; subst he; rfl
  have hne : name ≠ "version" := by rintro rfl; simp [ruleOf] at hr
  unfold load
  simp only [hall, if_true]
  rw [foldl_dump_version P c _ name hne, if_pos (sorted_mem name r hr)]
  obtain ⟨o, ho, hd, hrr⟩ := option_rule P name r hr
  have hone : dumpOne P c name = if pyEq v o.default then none else some (name, v) := by
    unfold dumpOne
    rw [ho, hv]
  rw [hone]
  by_cases hp : pyEq v o.default = true
  · rw [if_pos hp]
    simp only
    rw [defaultOf_eq, hd]
    refine ⟨_, rfl, ?_⟩
    have hsame := (pyEq_same v o.default).1 hp
    by_cases hrf : r = .flag
    · exact Or.inr ⟨hrf, hsame, rfl⟩
    · left
      have hdef' : (∀ b, o.default ≠ .bool b) ∧ (∀ b, o.default ≠ .int b) := by
        unfold ruleOf at hr
        split at hr <;> (try cases hr) <;> first | (exact absurd rfl hrf) | (cases ho; exact ⟨by simp, by simp⟩)
      obtain ⟨k1, k2⟩ := hdef'
      generalize o.default = d at *
      cases v <;> cases d <;> first
        | exact absurd rfl (k1 _)
        | exact absurd rfl (k2 _)
        | exact hsame.symm
  · rw [if_neg hp]
    exact ⟨v, rfl, Or.inl rfl⟩

/-- What is written on a first start with an old settings file that can be read. -/
theorem start_migrated (P : Py) (path old : String) (env : Env) (files : String → Option File) (es : File) (c : Conf)
    (hf : files path = none) (ho : files old = some es)
    (hc : c = if es.all (fun e => safe P e.2) then es.foldl (fun c e => Conf.set c e.1 e.2) (DEFAULTS P) else DEFAULTS P) (name : String) :
    (start P path old env files).view P name = getConf P env (load P (some (dump P c))).1 name := by
  have hfiles : initFiles P path old files path = some (dump P c) := by
    unfold initFiles
    simp [hf, ho, hc]
  have : (start P path old env files).top.conf = (load P (some (dump P c))).1 ∧ (start P path old env files).env = env := by
    unfold start
    simp only [hfiles]
    split
    · rw [(saveCfg_core P _ _).top, (saveCfg_core P _ _).env]; exact ⟨rfl, rfl⟩
    · exact ⟨rfl, rfl⟩
  unfold St.view
  rw [this.1, this.2]

theorem getConf_inForce (P : Py) (env : Env) (c : Conf) (name : String) (r : Rule) (hr : ruleOf name = some r)
    (he : env (envName name) = none) (v u : V) (hu : c name = some u) (h : u = v ∨ r = .flag ∧ SameValue v u) :
    InForce P r v (getConf P env c name) := by
  obtain ⟨o, ho, _, hrr⟩ := option_rule P name r hr
  have hg : getConf P env c name = convert P o.getter o.noneOk u := by
    unfold getConf
    rw [ho]
    simp only [he, hu]
  rw [hg]
  cases r with
  | flag =>
    obtain ⟨_, g2, _⟩ := hrr
    rw [g2]
    refine ⟨u, rfl, ?_⟩
    rcases h with rfl | ⟨_, h⟩
    · exact same_refl u
    · exact h
  | text =>
    rcases h with rfl | ⟨h, _⟩
    · obtain ⟨_, g2, _⟩ := hrr
      rw [g2]; rfl
    · cases h
  | oneOf l =>
    rcases h with rfl | ⟨h, _⟩
    · obtain ⟨_, g2, _⟩ := hrr
      rw [g2]; rfl
    · cases h
  | path =>
    rcases h with rfl | ⟨h, _⟩
    · obtain ⟨g1, g2, _⟩ := hrr
      rw [g1, g2]
      show convert P (some .asStr) true u = _
      simp only [convert, and_true]
      split <;> rfl
    · cases h
  | number us n =>
    rcases h with rfl | ⟨h, _⟩
    · obtain ⟨g, g1, g2, g3, g4⟩ := hrr
      rw [g1, g2, convert_number P g n us _ g4]
      have hr : (Rule.number us n).apply P u = if u = .none ∧ n = true then some V.none else numberOf P us (P.strOf u) := rfl
      refine ⟨?_, ?_⟩
      · intro w hw
        rw [← hr, hw]
      · intro hw
        rw [← hr, hw]
        exact ⟨_, rfl⟩
    · cases h

/-- C77 for every old settings file that can be read, whatever its values: on the first start each of them is in force as it stands,
and every other option has its default. -/
theorem C77_any_values (P : Py) (path old : String) (env : Env) (files : String → Option File) (es : File)
    (hf : files path = none) (ho : files old = some es) (hn : (es.map Prod.fst).Nodup) (hsafe : ∀ e ∈ es, safe P e.2 = true)
    (name : String) (r : Rule) (hr : ruleOf name = some r) (he : env (envName name) = none) :
    (∀ v, (name, v) ∈ es → InForce P r v ((start P path old env files).view P name)) ∧
    (∀ w, name ∉ es.map Prod.fst → defaultReads P name = some w → (start P path old env files).view P name = .ok w) := by
  let c : Conf := es.foldl (fun c e => Conf.set c e.1 e.2) (DEFAULTS P)
  have hcs : ∀ name r v, ruleOf name = some r → c name = some v → safe P v = true := by
    intro name r v hr hv
    by_cases hin : name ∈ es.map Prod.fst
    · obtain ⟨⟨k, v'⟩, hkv, rfl⟩ := List.mem_map.1 hin
      rw [show c k = some v' from (foldl_set es _ hn k).1 v' hkv] at hv
      cases hv
      exact hsafe _ hkv
    · rw [show c name = DEFAULTS P name from (foldl_set es _ hn name).2 hin, defaultOf_eq] at hv
      unfold ruleOf at hr
      split at hr
      all_goals first | (cases hr; done) | skip
      all_goals simp only [defaultOf, Option.some.injEq] at hv
      all_goals subst hv
      all_goals rfl
  have hall : es.all (fun e => safe P e.2) = true := List.all_eq_true.2 hsafe
  have hview := start_migrated P path old env files es c hf ho (by rw [if_pos hall]) name
  refine ⟨?_, ?_⟩
  · intro v hv
    rw [hview]
    obtain ⟨u, hu, h⟩ := load_dump_any P c hcs name r hr v ((foldl_set es _ hn name).1 v hv)
    exact getConf_inForce P env _ name r hr he v u hu (h.imp id (fun h => ⟨h.1, h.2.1⟩))
  · intro w hni hw
    rw [hview]
    have hcd : c name = defaultOf P name := by rw [← defaultOf_eq]; exact (foldl_set es _ hn name).2 hni
    obtain ⟨o, _, hd, _⟩ := option_rule P name r hr
    obtain ⟨u, hu, h⟩ := load_dump_any P c hcs name r hr o.default (hcd.trans hd)
    refine default_reads P env _ name r hr he ?_ w hw
    rw [hu]
    rcases h with h | ⟨_, _, h⟩
    · rw [h, hd]
    · exact h.symm

/-- C77: an old settings file that yaml cannot read gives the defaults. -/
theorem C77_unreadable (P : Py) (path old : String) (env : Env) (files : String → Option File) (es : File)
    (hf : files path = none) (ho : files old = some es) (hu : ∃ e ∈ es, safe P e.2 = false)
    (name : String) (r : Rule) (hr : ruleOf name = some r) (he : env (envName name) = none) (w : V) (hw : defaultReads P name = some w) :
    (start P path old env files).view P name = .ok w := by
  have hall : ¬es.all (fun e => safe P e.2) = true := by
    obtain ⟨e, he, h⟩ := hu
    intro h'
    have := List.all_eq_true.1 h' e he
    rw [h] at this
    cases this
  have hcs : ∀ name r v, ruleOf name = some r → DEFAULTS P name = some v → safe P v = true := by
    intro name r v hr hv
    rw [defaultOf_eq] at hv
    unfold ruleOf at hr
    split at hr
    all_goals first | (cases hr; done) | skip
    all_goals simp only [defaultOf, Option.some.injEq] at hv
    all_goals subst hv
    all_goals rfl
  rw [start_migrated P path old env files es (DEFAULTS P) hf ho (by rw [if_neg hall]) name]
  obtain ⟨o, _, hd, _⟩ := option_rule P name r hr
  obtain ⟨u, hu, h⟩ := load_dump_any P (DEFAULTS P) hcs name r hr o.default ((defaultOf_eq P name).trans hd)
  refine default_reads P env _ name r hr he ?_ w hw
  rw [hu]
  rcases h with h | ⟨_, _, h⟩
  · rw [h, hd]
  · exact h.symm

/-- C77: when the new file is there, the old one is of no account. -/
theorem C77_new_file_wins (P : Py) (path old : String) (env : Env) (files files' : String → Option File) (f : File)
    (h : files path = some f) (h' : files' path = some f) (name : String) :
    (start P path old env files).view P name = (start P path old env files').view P name := by
  rw [start_view P path old env files f h name, start_view P path old env files' f h' name]

/-- An old file with a flag written as a number, an unknown policy and a size that is no number. -/
def oddSettings : File := [("check-out-of-date-urls", .int 0), ("cache-policy", .str "any".toList), ("maximum-cache-size", .str "big".toList)]

example : (oddSettings.map Prod.fst).Nodup ∧ (∀ e ∈ oddSettings, safe py e.2 = true) ∧ ruleOf "cache-policy" ≠ none := by
  refine ⟨by decide, by decide, by simp [ruleOf]⟩

example : (start py "/cfg" "/old" (fun _ => none) (fun p => if p = "/old" then some oddSettings else none)).view py "cache-policy"
      = .ok (.str "any".toList) ∧
    (start py "/cfg" "/old" (fun _ => none) (fun p => if p = "/old" then some oddSettings else none)).view py "check-out-of-date-urls"
      = .ok (.bool false) ∧
    (start py "/cfg" "/old" (fun _ => none) (fun p => if p = "/old" then some oddSettings else none)).view py "maximum-cache-size"
      = .error .value := by
  refine ⟨?_, ?_, ?_⟩ <;> decide +kernel

example : safe py (.other 0) = false := by decide +kernel

/-- The machine has old settings only. -/
def onlyOld (es : File) : String → Option File := fun p => if p = "/old" then some es else none

/-- `C77_any_values` -/
example : (start py "/cfg" "/old" (fun _ => none) (onlyOld oddSettings)).view py "cache-policy" = .ok (.str "any".toList) ∧
    (start py "/cfg" "/old" (fun _ => none) (onlyOld oddSettings)).view py "url-download-timeout" = .ok (.int 30) :=
  ⟨(C77_any_values py "/cfg" "/old" (fun _ => none) (onlyOld oddSettings) oddSettings rfl rfl (by decide) (by decide) "cache-policy" _ rfl rfl).1
      (.str "any".toList) (by simp [oddSettings]),
    (C77_any_values py "/cfg" "/old" (fun _ => none) (onlyOld oddSettings) oddSettings rfl rfl (by decide) (by decide) "url-download-timeout" _ rfl rfl).2
      _ (by decide) rfl⟩

/-- `C77_unreadable`: one value that cannot be read, and the policy is lost. -/
example : (start py "/cfg" "/old" (fun _ => none) (onlyOld [("cache-policy", .str "off".toList), ("note", .other 0)])).view py "cache-policy" =
    .ok (.str "user".toList) :=
  C77_unreadable py "/cfg" "/old" (fun _ => none) _ [("cache-policy", .str "off".toList), ("note", .other 0)] rfl rfl
    ⟨("note", .other 0), by simp, by decide +kernel⟩ "cache-policy" _ rfl rfl _ rfl

/-- `C77_new_file_wins` -/
example : (start py "/cfg" "/old" (fun _ => none) (fun p => if p = "/cfg" then some [("cache-policy", .str "off".toList)] else onlyOld oddSettings p)).view py
      "check-out-of-date-urls" =
    (start py "/cfg" "/old" (fun _ => none) (fun p => if p = "/cfg" then some [("cache-policy", .str "off".toList)] else none)).view py
      "check-out-of-date-urls" :=
  C77_new_file_wins py "/cfg" "/old" (fun _ => none) _ _ [("cache-policy", .str "off".toList)] rfl rfl _

end Verif.Config
