import Verif.Config.Props3

/-!
# Configuration: documented variables, the inside of a temporary block, what a save leaves out (C17, C18, C19, C22)
-/

namespace Verif.Config

/-- The documented environment variable of an option (docs: `EARTHKIT_REGRID_` and the name in capitals). -/
def variableOf : String → Option String
  | "user-cache-directory" => some "EARTHKIT_REGRID_USER_CACHE_DIRECTORY"
  | "temporary-cache-directory-root" => some "EARTHKIT_REGRID_TEMPORARY_CACHE_DIRECTORY_ROOT"
  | "temporary-directory-root" => some "EARTHKIT_REGRID_TEMPORARY_DIRECTORY_ROOT"
  | "cache-policy" => some "EARTHKIT_REGRID_CACHE_POLICY"
  | "maximum-cache-size" => some "EARTHKIT_REGRID_MAXIMUM_CACHE_SIZE"
  | "maximum-cache-disk-usage" => some "EARTHKIT_REGRID_MAXIMUM_CACHE_DISK_USAGE"
  | "url-download-timeout" => some "EARTHKIT_REGRID_URL_DOWNLOAD_TIMEOUT"
  | "check-out-of-date-urls" => some "EARTHKIT_REGRID_CHECK_OUT_OF_DATE_URLS"
  | "download-out-of-date-urls" => some "EARTHKIT_REGRID_DOWNLOAD_OUT_OF_DATE_URLS"
  | "maximum-weights-memory-cache-size" => some "EARTHKIT_REGRID_MAXIMUM_WEIGHTS_MEMORY_CACHE_SIZE"
  | "weights-memory-cache-policy" => some "EARTHKIT_REGRID_WEIGHTS_MEMORY_CACHE_POLICY"
  | "weights-memory-cache-strict-mode" => some "EARTHKIT_REGRID_WEIGHTS_MEMORY_CACHE_STRICT_MODE"
  | _ => none

/-- Every option is read from its documented variable. -/
theorem C17_documented (P : Py) (s : St) (name : String) (r : Rule) (hr : ruleOf name = some r) :
    ∃ v, variableOf name = some v ∧ ∀ t, s.env v.toList = some t → s.view P name = match r.applyEnv P t with
      | some w => .ok w
      | none => .error .value := by
  have hall : ∀ a ∈ SORTED, variableOf a = some (String.ofList (envName a)) := by decide +kernel
  refine ⟨_, hall name (sorted_mem name r hr), fun t ht => C17_variable_wins P s name r t hr ?_⟩
  rw [String.toList_ofList] at ht
  exact ht

example : variableOf "cache-policy" = some "EARTHKIT_REGRID_CACHE_POLICY" ∧ ruleOf "cache-policy" ≠ none := by
  refine ⟨by decide +kernel, fun h => by simp [ruleOf] at h⟩

theorem notifyL_quiet (R : Raises) (hR : ∀ o s, R o s = false) (os : List Nat) (s : St) : (notifyL R os s).1 = none := by
  induction os generalizing s with
  | nil => rfl
  | cons o os ih =>
    unfold notifyL
    rw [if_neg (by rw [hR]; exact Bool.false_ne_true)]
    exact ih _

theorem notify_quiet (R : Raises) (hR : ∀ o s, R o s = false) (s : St) : ∃ s', notify R s = (none, s') ∧ SameCore s s' :=
  ⟨(notify R s).2, Prod.ext (notifyL_quiet R hR _ s) rfl, (notifyL_core R _ s).1⟩

/-- The first pair that is refused. -/
theorem setMany_stops (P : Py) (kvs : List (String × V)) (c c' : Conf) (e : Err) (h : setMany P c kvs = (some e, c')) :
    ∃ pre kv post, kvs = pre ++ kv :: post ∧ (∀ x ∈ pre, Acceptable P x.1 x.2) ∧ ¬Acceptable P kv.1 kv.2 ∧ setMany P c pre = (none, c') := by
  induction kvs generalizing c with
  | nil => cases h
  | cons kv rest ih =>
    obtain ⟨k, v⟩ := kv
    rw [setMany] at h
    have h1 := setMany_ok_iff P [(k, v)] c
    simp only [setMany, List.mem_singleton, forall_eq] at h1
    cases hs : setOne P c k [v] false with
    | error e' =>
      rw [hs] at h h1
      cases h
      exact ⟨[], (k, v), rest, rfl, by simp, fun ha => by simpa using h1.2 ha, rfl⟩
    | ok c1 =>
      rw [hs] at h h1
      obtain ⟨pre, kv, post, g1, g2, g3, g4⟩ := ih c1 h
      refine ⟨(k, v) :: pre, kv, post, by rw [g1]; rfl, ?_, g3, ?_⟩
      · intro x hx
        rcases List.mem_cons.1 hx with rfl | hx
        · exact h1.1 rfl
        · exact g2 x hx
      · rw [setMany, hs]; exact g4

/-- What a refused dict leaves: the options read as if only the pairs before the first one that is not acceptable had been given. -/
theorem C18_prefix (P : Py) (R : Raises) (s s' : St) (kvs : List (String × V)) (e : Err)
    (h : set P R (.dict kvs) s = (some e, s')) (he : e ≠ .observer) :
    ∃ pre kv post, kvs = pre ++ kv :: post ∧ (∀ x ∈ pre, Acceptable P x.1 x.2) ∧ ¬Acceptable P kv.1 kv.2 ∧
      ∀ R' name, s'.view P name = (set P R' (.dict pre) s).2.view P name := by
  cases hm : setMany P s.top.conf kvs with
  | mk x c =>
    cases x with
    | none =>
      simp only [set, applyReq, hm] at h
      exact absurd (changedN_err P R 1 _ e (by rw [h])) he
    | some e' =>
      simp only [set, applyReq, hm] at h
      cases h
      obtain ⟨pre, kv, post, g1, g2, g3, g4⟩ := setMany_stops P kvs _ _ _ hm
      refine ⟨pre, kv, post, g1, g2, g3, fun R' name => ?_⟩
      simp only [set, applyReq, g4]
      have hc := changedN_core P R' 1 (s.setTop c)
      unfold St.view
      rw [hc.top, hc.env]

example : (set py quiet (.dict [("cache-policy", .str "off".toList), ("maximum-cache-size", .str "big".toList), ("url-download-timeout", .int 5)])
    fresh).1 = some .value := by decide +kernel

/-- The outcome of a block is the outcome of its body. -/
theorem temp_body (P : Py) (R : Raises) (hR : ∀ o s, R o s = false) (r : Option Req) (y : Option String) (s s1 : St) (t : Cfg)
    (hm : makeTemp P r y s = (none, t, s1)) :
    ∃ s0, SameCore { s1 with stack := t :: s1.stack } s0 ∧ ∀ b, (run P R (.temp r y b) s).1 = (run P R b s0).1 := by
  obtain ⟨s0, h0, hc⟩ := notify_quiet R hR { s1 with stack := t :: s1.stack }
  refine ⟨s0, hc, fun b => ?_⟩
  rw [run, hm]
  simp only [h0]
  generalize run P R b s0 = x
  obtain ⟨e, s2⟩ := x
  obtain ⟨s3, h3, _⟩ := notify_quiet R hR { s2 with stack := s2.stack.tail }
  simp only [h3]

/-- A block without arguments starts with what is visible outside, and ends as its body ends: with the exception of the body, if it
raises one. -/
theorem C19_inside_plain (P : Py) (R : Raises) (hR : ∀ o s, R o s = false) (y : Option String) (s : St) :
    ∃ s0, (∀ name, s0.view P name = s.view P name) ∧ ∀ b, (run P R (.temp none y b) s).1 = (run P R b s0).1 := by
  obtain ⟨s0, hc, h⟩ := temp_body P R hR none y s s ⟨s.top.conf, y⟩ rfl
  refine ⟨s0, fun name => ?_, h⟩
  rw [view_core P hc]
  rfl

/-- A block with arguments starts with what a plain `set` of the same arguments would make visible. -/
theorem C19_inside (P : Py) (R : Raises) (hR : ∀ o s, R o s = false) (req : Req) (y : Option String) (s s' : St)
    (hs : set P R req s = (none, s')) :
    ∃ s0, (∀ name, s0.view P name = s'.view P name) ∧ ∀ b, (run P R (.temp (some req) y b) s).1 = (run P R b s0).1 := by
  rcases set_result P R req s with ⟨e, _, h2⟩ | ⟨h1, h2⟩
  · rw [h2] at hs
    cases hs
  · have hm : ∃ s1, makeTemp P (some req) y s = (none, ⟨(applyReq P s.top.conf req).2.1, y⟩, s1) ∧ s1.env = s.env := by
      have hm' : makeTemp P (some req) y s = match applyReq P s.top.conf req with
          | (some e, c, _) => (some e, ⟨c, y⟩, s)
          | (none, c, _) => (none, ⟨c, y⟩, if s.autosave then saveCfg P ⟨c, y⟩ s else s) := rfl
      rw [hm']
      generalize applyReq P s.top.conf req = x at h1
      obtain ⟨e, c, n⟩ := x
      simp only at h1
      subst h1
      refine ⟨if s.autosave then saveCfg P ⟨c, y⟩ s else s, rfl, ?_⟩
      by_cases ha : s.autosave
      · rw [if_pos ha]
        exact (saveCfg_core P _ s).env
      · rw [if_neg ha]
    obtain ⟨s1, hm, henv⟩ := hm
    obtain ⟨s0, hc, h⟩ := temp_body P R hR (some req) y s s1 _ hm
    refine ⟨s0, fun name => ?_, h⟩
    rw [view_core P hc]
    have hc' := changedN_core P R (applyReq P s.top.conf req).2.2 (s.setTop (applyReq P s.top.conf req).2.1)
    rw [← h2, hs] at hc'
    rw [view_core P hc']
    unfold St.view
    rw [top_setTop, (setTop_env s _).1]
    simp only [St.top, List.headD_cons]
    rw [henv]

example : (run py quiet (.temp (some (.kw [("cache_policy", .str "off".toList)])) none .raise) fresh).1 = some .user := by decide +kernel
example : (set py quiet (.kw [("cache_policy", .str "off".toList)]) fresh).1 = none := by decide +kernel

/-- Two values are the same to python: identical, or a flag and its number. -/
def SameValue : V → V → Prop
  | .bool a, .int i => i = if a then 1 else 0
  | .int i, .bool a => i = if a then 1 else 0
  | a, b => a = b

/-- Of an option that has a value, exactly those are written whose value is not the documented default (to python). -/
theorem C22_written (P : Py) (c : Conf) (name : String) (r : Rule) (v d : V) (hr : ruleOf name = some r) (hd : defaultOf P name = some d)
    (hv : c name = some v) : (name, v) ∈ dump P c ↔ ¬SameValue v d := by
  obtain ⟨o, ho, hdef⟩ := option_rule P name r hr
  have hod : o.default = d := Option.some.inj (hdef.1.symm.trans hd)
  have hpy : pyEq v d = true ↔ SameValue v d := by
    unfold pyEq SameValue
    cases v <;> cases d <;> first
      | exact decide_eq_true_iff
      | (rw [beq_iff_eq]; exact eq_comm)
  have hone : dumpOne P c name = if pyEq v d then none else some (name, v) := by
    unfold dumpOne
    rw [ho, hv]
    simp only [hod]
  unfold dump
  rw [List.mem_append]
  constructor
  · rintro (h | h)
    · obtain ⟨k, _, hk⟩ := List.mem_filterMap.1 h
      have : k = name := by
        unfold dumpOne at hk
        split at hk
        · split at hk
          · cases hk
          · simp only [Option.some.injEq, Prod.mk.injEq] at hk
            exact hk.1
        · cases hk
      subst this
      rw [hone] at hk
      by_cases hp : pyEq v d
      · rw [if_pos hp] at hk; cases hk
      · exact fun h' => hp (hpy.2 h')
    · have : name = "version" := by
        simp only [List.mem_singleton, Prod.mk.injEq] at h
        exact h.1
      subst this
      simp [ruleOf] at hr
  · intro h
    left
    refine List.mem_filterMap.2 ⟨name, sorted_mem name r hr, ?_⟩
    rw [hone, if_neg (fun h' => h (hpy.1 h'))]

example : ruleOf "check-out-of-date-urls" = some .flag ∧ defaultOf py "check-out-of-date-urls" = some (.bool false) ∧
    ¬SameValue (.int 1) (.bool false) ∧ SameValue (.int 0) (.bool false) := by
  refine ⟨rfl, rfl, ?_, ?_⟩ <;> simp [SameValue]

/-- `C17_documented` -/
example : ({ fresh with env := fun m => if m = "EARTHKIT_REGRID_URL_DOWNLOAD_TIMEOUT".toList then some "2m".toList else none } : St).view py
    "url-download-timeout" = .ok (.int 120) := by
  obtain ⟨v, hv, h⟩ := C17_documented py ({ fresh with env := fun m => if m = "EARTHKIT_REGRID_URL_DOWNLOAD_TIMEOUT".toList then some "2m".toList else none })
    "url-download-timeout" _ rfl
  cases hv
  exact h "2m".toList (by simp)

/-- `C18_prefix`: the policy was changed before the second value was refused. -/
example : ∃ s', set py quiet (.dict [("cache-policy", .str "off".toList), ("maximum-cache-size", .str "big".toList)]) fresh = (some .value, s') ∧
    ∃ pre kv post, [("cache-policy", V.str "off".toList), ("maximum-cache-size", .str "big".toList)] = pre ++ kv :: post ∧
      (∀ x ∈ pre, Acceptable py x.1 x.2) ∧ ¬Acceptable py kv.1 kv.2 ∧
      ∀ R' name, s'.view py name = (set py R' (.dict pre) fresh).2.view py name :=
  have h : set py quiet (.dict [("cache-policy", .str "off".toList), ("maximum-cache-size", .str "big".toList)]) fresh = (some .value, _) :=
    Prod.ext (by decide +kernel) rfl
  ⟨_, h, C18_prefix py quiet fresh _ _ .value h (by decide)⟩

/-- `C19_inside_plain`, `C19_inside` -/
example : ∃ s0 : St, s0.view py "cache-policy" = .ok (.str "off".toList) ∧
    ∀ b, (run py quiet (.temp (some (.kw [("cache_policy", .str "off".toList)])) none b) fresh).1 = (run py quiet b s0).1 := by
  obtain ⟨s0, h1, h2⟩ := C19_inside py quiet (fun _ _ => rfl) (.kw [("cache_policy", .str "off".toList)]) none fresh _ (Prod.ext (by decide +kernel) rfl)
  exact ⟨s0, (h1 _).trans (by decide +kernel), h2⟩

example : ∃ s0 : St, s0.view py "cache-policy" = .ok (.str "user".toList) ∧
    ∀ b, (run py quiet (.temp none (some "/other") b) fresh).1 = (run py quiet b s0).1 := by
  obtain ⟨s0, h1, h2⟩ := C19_inside_plain py quiet (fun _ _ => rfl) (some "/other") fresh
  exact ⟨s0, (h1 _).trans (by decide +kernel), h2⟩

/-- `C22_written` -/
example : ("check-out-of-date-urls", .int 1) ∈ dump py (fun n => if n = "check-out-of-date-urls" then some (.int 1) else none) ∧
    ("check-out-of-date-urls", .int 0) ∉ dump py (fun n => if n = "check-out-of-date-urls" then some (.int 0) else none) :=
  ⟨(C22_written py _ "check-out-of-date-urls" _ (.int 1) (.bool false) rfl rfl (if_pos rfl)).2 (by simp [SameValue]),
    fun h => (C22_written py _ "check-out-of-date-urls" _ (.int 0) (.bool false) rfl rfl (if_pos rfl)).1 h (by simp [SameValue])⟩

/-! ### C20: a block that is not entered -/

theorem notifyL_raises (P : Py) (R : Raises) (v : String → Except Err V) (os : List Nat) (s : St) (hv : s.view P = v)
    (h : ∃ o ∈ os, ∀ t : St, t.view P = v → R o t = true) : (notifyL R os s).1 = some .observer := by
  induction os generalizing s with
  | nil => obtain ⟨o, ho, _⟩ := h; cases ho
  | cons o os ih =>
    unfold notifyL
    simp only
    split
    · rfl
    · next hn =>
      refine ih _ hv ?_
      obtain ⟨o', ho', h'⟩ := h
      rcases List.mem_cons.1 ho' with rfl | ho'
      · exact absurd (h' s hv) hn
      · exact ⟨o', ho', h'⟩

/-- C20, exactly, for arguments of every form: arguments that `set` refuses are refused in the same way and leave the state as it was;
with arguments that `set` takes, every observer that cannot bear the new configuration makes the entry raise, and the new configuration
stays in force. -/
theorem C20_exact (P : Py) (R : Raises) (req : Req) (y : Option String) (s : St) :
    (∀ e s', set P quiet req s = (some e, s') → ∀ b, run P R (.temp (some req) y b) s = (some e, s)) ∧
    (∀ s', set P quiet req s = (none, s') → (∃ o ∈ s.callbacks, ∀ t : St, t.view P = s'.view P → R o t = true) →
      ∀ b, (run P R (.temp (some req) y b) s).1 = some .observer ∧ (run P R (.temp (some req) y b) s).2.view P = s'.view P) := by
  rcases set_result P quiet req s with ⟨e, h1, h2⟩ | ⟨h1, h2⟩
  · refine ⟨fun e' s' h b => ?_, fun s' h => ?_⟩
    · rw [h2] at h
      cases h
      exact run_temp_refused P R req y b s e h1
    · rw [h2] at h
      cases h
  · have hq : ∀ n (s : St), (changedN P quiet n s).1 = none := by
      intro n
      induction n with
      | zero => intro s; rfl
      | succ n ih =>
        intro s
        obtain ⟨s0, h0, _⟩ := notify_quiet quiet (fun _ _ => rfl) (if s.autosave then saveCfg P s.top s else s)
        unfold changedN changed
        rw [h0]
        exact ih s0
    refine ⟨fun e s' h => ?_, fun s' h hR b => ?_⟩
    · rw [h2] at h
      have := hq (applyReq P s.top.conf req).2.2 (s.setTop (applyReq P s.top.conf req).2.1)
      rw [h] at this
      cases this
    · have hm : ∃ s1, makeTemp P (some req) y s = (none, ⟨(applyReq P s.top.conf req).2.1, y⟩, s1) ∧ SameCore s s1 := by
        have hm' : makeTemp P (some req) y s = match applyReq P s.top.conf req with
            | (some e, c, _) => (some e, ⟨c, y⟩, s)
            | (none, c, _) => (none, ⟨c, y⟩, if s.autosave then saveCfg P ⟨c, y⟩ s else s) := rfl
        rw [hm']
        generalize applyReq P s.top.conf req = x at h1
        obtain ⟨e, c, n⟩ := x
        simp only at h1
        subst h1
        refine ⟨if s.autosave then saveCfg P ⟨c, y⟩ s else s, rfl, ?_⟩
        by_cases ha : s.autosave
        · rw [if_pos ha]
          exact saveCfg_core P _ s
        · rw [if_neg ha]
          exact .refl s
      obtain ⟨s1, hm, hc1⟩ := hm
      have hview : ({ s1 with stack := ⟨(applyReq P s.top.conf req).2.1, y⟩ :: s1.stack } : St).view P = s'.view P := by
        have hc' := changedN_core P quiet (applyReq P s.top.conf req).2.2 (s.setTop (applyReq P s.top.conf req).2.1)
        rw [← h2, h] at hc'
        rw [view_core P hc']
        funext name
        unfold St.view
        rw [top_setTop, (setTop_env s _).1]
        simp only [St.top, List.headD_cons]
        rw [hc1.env]
      have hn : (notify R { s1 with stack := ⟨(applyReq P s.top.conf req).2.1, y⟩ :: s1.stack }).1 = some .observer := by
        refine notifyL_raises P R (s'.view P) _ _ hview ?_
        rw [show ({ s1 with stack := ⟨(applyReq P s.top.conf req).2.1, y⟩ :: s1.stack } : St).callbacks = s1.callbacks from rfl, hc1.callbacks]
        exact hR
      have hcore := (notifyL_core R ({ s1 with stack := ⟨(applyReq P s.top.conf req).2.1, y⟩ :: s1.stack } : St).callbacks
        { s1 with stack := ⟨(applyReq P s.top.conf req).2.1, y⟩ :: s1.stack }).1
      rw [show notifyL R ({ s1 with stack := ⟨(applyReq P s.top.conf req).2.1, y⟩ :: s1.stack } : St).callbacks
        { s1 with stack := ⟨(applyReq P s.top.conf req).2.1, y⟩ :: s1.stack } = notify R { s1 with stack := ⟨(applyReq P s.top.conf req).2.1, y⟩ :: s1.stack } from rfl] at hcore
      rw [run, hm]
      simp only
      generalize notify R { s1 with stack := ⟨(applyReq P s.top.conf req).2.1, y⟩ :: s1.stack } = x at hn hcore
      obtain ⟨a, s2⟩ := x
      simp only at hn hcore
      subst hn
      refine ⟨rfl, ?_⟩
      rw [← hview, ← view_core P hcore]
      rfl

/-- `temporary("maximum-weights-memory-cache-size", 0)` with the observer of the in-memory cache. -/
example : (∃ s', set py quiet (.pos "maximum-weights-memory-cache-size" [.int 0] false) { fresh with callbacks := [0] } = (none, s') ∧
      ∃ o ∈ ({ fresh with callbacks := [0] } : St).callbacks, ∀ t : St, t.view py = s'.view py → memObserver o t = true) ∧
    ∃ e s', set py quiet (.pos "maximum-weights-memory-cache-size" [.str "big".toList] false) fresh = (some e, s') := by
  refine ⟨⟨_, Prod.ext (by decide +kernel) rfl, 0, List.mem_singleton.2 rfl, fun t ht => ?_⟩, .value, _, Prod.ext (by decide +kernel) rfl⟩
  unfold memObserver
  have h1 := congrFun ht "weights-memory-cache-policy"
  have h2 := congrFun ht "maximum-weights-memory-cache-size"
  unfold St.view at h1 h2
  rw [h1, h2]
  decide +kernel

end Verif.Config
