import Verif.Config.MigrateProps
import Mathlib.Data.String.Basic

/-!
# Displays of the configuration — src/earthkit/regrid/utils/config.py:459-498, 584-601

A dict is its list of items in insertion order (`Lists`). `print(config)` and the html display are made of the same rows; the
html text itself (and its style sheet, html.py) is in `Html.lean`.
-/

namespace Verif.Config.Show
open Verif.Config

/-- `sorted(self._config.items())`: the names are distinct, so they alone decide. -/
def sortItems (items : List (String × V)) : List (String × V) := items.mergeSort (fun a b => decide (a.1 ≤ b.1))

/-- `env()` — config.py:584-590 -/
def envOf (env : Env) (items : List (String × V)) : List (String × (List Char × List Char)) :=
  (sortItems items).filterMap (fun e => (env (envName e.1)).map (fun t => (e.1, (envName e.1, t))))

/-- One line of a display. -/
structure Row where
  name : String
  /-- variable and text, when the variable is set -/
  var : Option (List Char × List Char)
  value : V
  /-- `none`: not an option, shown as "" -/
  default : Option V

/-- The rows of `__repr__` and `_repr_html_` — config.py:461-470, 475-494 -/
def rows (P : Py) (env : Env) (items : List (String × V)) : List Row :=
  (sortItems items).map (fun e => ⟨e.1, (envOf env items).lookup e.1, e.2, (option P e.1).map OptDef.default⟩)

/-- One line of `__repr__` — config.py:466-469 -/
def line (P : Py) (r : Row) : List Char :=
  r.name.toList ++ ": (".toList ++
    (match r.var with
     | some (n, t) => n ++ "=".toList ++ t ++ ", ".toList
     | none => []) ++
    P.strOf r.value ++ ", ".toList ++ (match r.default with | some d => P.strOf d | none => []) ++ ")".toList

/-- `__repr__` — config.py:459-470 -/
def reprText (P : Py) (env : Env) (items : List (String × V)) : List Char :=
  "\n".toList.intercalate ((rows P env items).map (line P))

/-- `dump()` — config.py:496-498 (without the help objects) -/
def dumpItems (items : List (String × V)) : List (String × V) := sortItems items

/-- The items of a dict. -/
def Lists (c : Conf) (items : List (String × V)) : Prop :=
  (items.map Prod.fst).Nodup ∧ ∀ k v, (k, v) ∈ items ↔ c k = some v

/-! ### lemmas -/

theorem sort_perm (items : List (String × V)) : (sortItems items).Perm items := List.mergeSort_perm _ _

theorem sort_sorted (items : List (String × V)) (hn : (items.map Prod.fst).Nodup) :
    (sortItems items).Pairwise (fun a b => a.1 < b.1) := by
  have h1 : (sortItems items).Pairwise (fun a b => decide (a.1 ≤ b.1) = true) := by
    apply List.pairwise_mergeSort
    · intro a b c h h'; simp only [decide_eq_true_eq] at *; exact le_trans h h'
    · intro a b; simp only [Bool.or_eq_true, decide_eq_true_eq]; exact le_total _ _
  have h2 : ((sortItems items).map Prod.fst).Nodup := ((sort_perm items).map Prod.fst).nodup_iff.2 hn
  rw [List.Nodup, List.pairwise_map] at h2
  refine (h1.and h2).imp ?_
  rintro a b ⟨h, h'⟩
  simp only [decide_eq_true_eq] at h
  exact lt_of_le_of_ne h h'

theorem envOf_mem (env : Env) (items : List (String × V)) (k : String) (n t : List Char) :
    (k, (n, t)) ∈ envOf env items ↔ (∃ v, (k, v) ∈ items) ∧ n = envName k ∧ env (envName k) = some t := by
  unfold envOf
  rw [List.mem_filterMap]
  constructor
  · rintro ⟨⟨k', v⟩, hm, h⟩
    simp only [Option.map_eq_some_iff, Prod.mk.injEq] at h
    obtain ⟨t', ht, rfl, rfl, rfl⟩ := h
    exact ⟨⟨v, (sort_perm items).mem_iff.1 hm⟩, rfl, ht⟩
  · rintro ⟨⟨v, hv⟩, rfl, ht⟩
    exact ⟨(k, v), (sort_perm items).mem_iff.2 hv, by simp [ht]⟩

theorem envOf_nodup (env : Env) (items : List (String × V)) (hn : (items.map Prod.fst).Nodup) : ((envOf env items).map Prod.fst).Nodup := by
  have h2 : ((sortItems items).map Prod.fst).Nodup := ((sort_perm items).map Prod.fst).nodup_iff.2 hn
  refine List.Nodup.sublist ?_ h2
  unfold envOf
  generalize sortItems items = l
  induction l with
  | nil => simp
  | cons e l ih =>
    rw [List.filterMap_cons]
    cases env (envName e.1) with
    | none => simp only [Option.map_none, List.map_cons]; exact ih.trans (List.sublist_cons_self _ _)
    | some t => simp only [Option.map_some, List.map_cons]; exact ih.cons_cons _

theorem lookup_iff {β : Type} (l : List (String × β)) (hn : (l.map Prod.fst).Nodup) (k : String) (b : β) :
    l.lookup k = some b ↔ (k, b) ∈ l := by
  induction l with
  | nil => simp
  | cons e l ih =>
    obtain ⟨a, x⟩ := e
    rw [List.map_cons, List.nodup_cons] at hn
    rw [List.lookup_cons]
    by_cases h : k = a
    · subst h
      simp only [beq_self_eq_true, List.mem_cons, Prod.mk.injEq, true_and, Option.some.injEq]
      constructor
      · rintro rfl; exact Or.inl rfl
      · rintro (rfl | h)
        · rfl
        · exact absurd (List.mem_map.2 ⟨_, h, rfl⟩) hn.1
    · rw [show (k == a) = false from by simpa using h]
      simp only [List.mem_cons, Prod.mk.injEq, h, false_and, false_or]
      exact ih hn.2

/-! ### every option is there, always -/

def Full (c : Conf) : Prop := ∀ name r, ruleOf name = some r → (c name).isSome = true

theorem full_set {c : Conf} (h : Full c) (k : String) (v : V) : Full (c.set k v) := by
  intro n r hr
  unfold Conf.set
  split
  · rfl
  · exact h n r hr

theorem full_defaults (P : Py) : Full (DEFAULTS P) := by
  intro n r hr
  obtain ⟨o, _, hd, _⟩ := option_rule P n r hr
  rw [defaultOf_eq, hd]; rfl

theorem setOne_full (P : Py) (c c' : Conf) (name : String) (args : List V) (kw : Bool) (hc : Full c)
    (h : setOne P c name args kw = .ok c') : Full c' := by
  unfold setOne at h
  split at h
  · cases h
  · split at h
    · rename_i o _ v
      simp only [bind, Except.bind] at h
      split at h
      · cases h
      · split at h
        · cases h
        · simp only [pure, Except.pure, Except.ok.injEq] at h
          subst h
          exact full_set hc _ _
    · cases h

theorem setMany_full (P : Py) (kvs : List (String × V)) (c : Conf) (hc : Full c) : Full (setMany P c kvs).2 := by
  induction kvs generalizing c with
  | nil => exact hc
  | cons e kvs ih =>
    obtain ⟨k, v⟩ := e
    unfold setMany
    cases h : setOne P c k [v] false with
    | error e => exact hc
    | ok c' => exact ih c' (setOne_full P c c' k _ _ hc h)

theorem applyReq_full (P : Py) (c : Conf) (r : Req) (hc : Full c) : Full (applyReq P c r).2.1 := by
  cases r with
  | kw kvs =>
    cases kvs with
    | nil => exact hc
    | cons e kvs =>
      have := setMany_full P ((e :: kvs).map (fun p => (dashed p.1, p.2))) c hc
      simp only [applyReq]
      generalize setMany P c ((e :: kvs).map (fun p => (dashed p.1, p.2))) = x at *
      obtain ⟨o, c'⟩ := x
      cases o <;> exact this
  | dict kvs =>
    have := setMany_full P kvs c hc
    simp only [applyReq]
    generalize setMany P c kvs = x at *
    obtain ⟨o, c'⟩ := x
    cases o <;> exact this
  | pos name args kw =>
    simp only [applyReq]
    cases h : setOne P c name args kw with
    | error e => exact hc
    | ok c' => exact setOne_full P c c' name args kw hc h

/-- Every object has a value for every option. -/
def StFull (s : St) : Prop := Full s.root.conf ∧ ∀ t ∈ s.stack, Full t.conf

theorem StFull.top {s : St} (h : StFull s) : Full s.top.conf := by
  unfold St.top
  cases hs : s.stack with
  | nil => exact h.1
  | cons t ts => exact h.2 t (by simp [hs])

theorem StFull.setTop {s : St} (h : StFull s) {c : Conf} (hc : Full c) : StFull (s.setTop c) := by
  unfold St.setTop
  cases hs : s.stack with
  | nil => exact ⟨hc, by simp⟩
  | cons t ts =>
    refine ⟨h.1, ?_⟩
    intro u hu
    rcases List.mem_cons.1 hu with rfl | hu
    · exact hc
    · exact h.2 u (by rw [hs]; exact List.mem_cons_of_mem _ hu)

theorem StFull.core {s s' : St} (h : StFull s) (hc : SameCore s s') : StFull s' :=
  ⟨by rw [hc.root]; exact h.1, by rw [hc.stack]; exact h.2⟩

theorem full_stable (P : Py) (R : Raises) : Stable P R StFull (fun _ => True) (fun _ _ => True) where
  act a s _ h := by
    cases a with
    | set r =>
      show StFull (set P R r s).2
      unfold set
      have := applyReq_full P s.top.conf r h.top
      generalize applyReq P s.top.conf r = x at *
      obtain ⟨e, c, n⟩ := x
      cases e with
      | some e => exact h.setTop this
      | none => exact (h.setTop this).core (changedN_core _ _ _ _)
    | reset n =>
      show StFull (reset P R n s).2
      unfold reset
      split
      · exact (h.setTop (full_defaults P)).core (changed_core _ _ _)
      · split
        · exact h
        · rename_i n _ v hv
          refine (h.setTop ?_).core (changed_core _ _ _)
          intro m r hr
          by_cases hm : m = n
          · subst hm; simp [Conf.set]
          · simpa [Conf.set, Conf.erase, hm] using h.top m r hr
    | get n =>
      simp only [act]
      split <;> exact h
    | autosave b => exact h
    | onChange o => exact h
    | setEnv n v => exact h
  push r y s _ h hok := by
    have hc := makeTemp_core P r y s
    have : Full (makeTemp P r y s).2.1.conf := by
      unfold makeTemp
      cases r with
      | none => exact h.top
      | some r =>
        have := applyReq_full P s.top.conf r h.top
        simp only
        generalize applyReq P s.top.conf r = x at *
        obtain ⟨e, c, n⟩ := x
        cases e <;> exact this
    refine ⟨?_, ?_⟩
    · simp only; rw [hc.root]; exact h.1
    · intro t ht
      rcases List.mem_cons.1 ht with rfl | ht
      · exact this
      · rw [hc.stack] at ht; exact h.2 t ht
  pop s h := ⟨h.1, fun t ht => h.2 t (List.mem_of_mem_tail ht)⟩
  notify os s h := h.core (notifyL_core R os s).1
  failed s n h := h

theorem load_full (P : Py) (f : Option File) : Full (load P f).1 := by
  unfold load
  cases f with
  | none => exact full_defaults P
  | some es =>
    simp only
    split
    · have : ∀ (es : File) (c : Conf), Full c → Full (es.foldl (fun c e => Conf.set c e.1 e.2) c) := by
        intro es
        induction es with
        | nil => intro c h; exact h
        | cons e es ih => intro c h; exact ih _ (full_set h _ _)
      exact this es _ (full_defaults P)
    · exact full_defaults P

theorem start_full (P : Py) (path old : String) (env : Env) (files : String → Option File) : StFull (start P path old env files) := by
  unfold start
  simp only
  split
  · exact StFull.core ⟨load_full P _, by simp⟩ (saveCfg_core P _ _)
  · exact ⟨load_full P _, by simp⟩

/-- Every program, from any files: the options are all there. -/
theorem run_full (P : Py) (R : Raises) (p : Prog) (path old : String) (env : Env) (files : String → Option File) :
    StFull (run P R p (start P path old env files)).2 :=
  (full_stable P R).run p (Prog.all_true p) _ (start_full P path old env files)

/-! ### the claims -/

/-- What a row says about an option: its default, and in force is the text of the variable, if one is shown, and otherwise the value. -/
structure Tells (P : Py) (s : St) (row : Row) (r : Rule) : Prop where
  default : row.default = defaultOf P row.name
  fromVariable : ∀ n t, row.var = some (n, t) → (∃ v, variableOf row.name = some v ∧ n = v.toList) ∧
    s.view P row.name = match r.applyEnv P t with
      | some w => .ok w
      | none => .error .value
  value : row.var = none → InForce P r row.value (s.view P row.name)

/-- **C113.**  At any point of any program started with any files, inside or outside of temporary configurations, the display is
sorted by name and has exactly one row for every option, and the row tells what is in force. -/
theorem C113_rows (P : Py) (R : Raises) (p : Prog) (path old : String) (env : Env) (files : String → Option File) (s : St)
    (hs : s = (run P R p (start P path old env files)).2) (items : List (String × V)) (hl : Lists s.top.conf items) :
    (rows P s.env items).Pairwise (fun a b => a.name < b.name) ∧
    ∀ name r, ruleOf name = some r → ∃ row ∈ rows P s.env items, row.name = name ∧ Tells P s row r := by
  obtain ⟨hn, hl⟩ := hl
  refine ⟨?_, ?_⟩
  · unfold rows
    rw [List.pairwise_map]
    exact sort_sorted items hn
  · intro name r hr
    have hfull := (hs ▸ run_full P R p path old env files : StFull s).top name r hr
    obtain ⟨v, hv⟩ := Option.isSome_iff_exists.1 hfull
    have hmem := (hl name v).2 hv
    refine ⟨_, List.mem_map.2 ⟨(name, v), (sort_perm items).mem_iff.2 hmem, rfl⟩, rfl, ?_⟩
    have hall : ∀ a ∈ SORTED, variableOf a = some (String.ofList (envName a)) := by decide +kernel
    refine ⟨?_, ?_, ?_⟩
    · rw [← defaultOf_eq]; rfl
    · intro n t h
      rw [lookup_iff _ (envOf_nodup _ _ hn), envOf_mem] at h
      obtain ⟨_, h1, h2⟩ := h
      refine ⟨⟨_, hall name (sorted_mem name r hr), ?_⟩, C17_variable_wins P s name r t hr h2⟩
      rw [String.toList_ofList]; exact h1
    · intro h
      have he : s.env (envName name) = none := by
        cases he : s.env (envName name) with
        | none => rfl
        | some t =>
          have := (lookup_iff (envOf s.env items) (envOf_nodup _ _ hn) name (envName name, t)).2
            ((envOf_mem _ _ _ _ _).2 ⟨⟨v, hmem⟩, rfl, he⟩)
          rw [this] at h; cases h
      exact getConf_inForce P s.env _ name r hr he v v hv (Or.inl rfl)

/-- **C113, `env()`.**  It lists exactly the options whose variables are set, with the variable and its text. -/
theorem C113_env (P : Py) (R : Raises) (p : Prog) (path old : String) (env : Env) (files : String → Option File) (s : St)
    (hs : s = (run P R p (start P path old env files)).2) (items : List (String × V)) (hl : Lists s.root.conf items)
    (name : String) (r : Rule) (hr : ruleOf name = some r) (n t : List Char) :
    (name, (n, t)) ∈ envOf s.env items ↔ ∃ v, variableOf name = some v ∧ n = v.toList ∧ s.env v.toList = some t := by
  have hall : ∀ a ∈ SORTED, variableOf a = some (String.ofList (envName a)) := by decide +kernel
  have hv := hall name (sorted_mem name r hr)
  have hfull := (hs ▸ run_full P R p path old env files : StFull s).1 name r hr
  obtain ⟨v, hv'⟩ := Option.isSome_iff_exists.1 hfull
  rw [envOf_mem, hv]
  constructor
  · rintro ⟨_, rfl, h⟩
    exact ⟨_, rfl, by rw [String.toList_ofList], by rw [String.toList_ofList]; exact h⟩
  · rintro ⟨x, hx, h1, h2⟩
    simp only [Option.some.injEq] at hx
    subst hx
    rw [String.toList_ofList] at h1 h2
    exact ⟨⟨v, (hl.2 name v).2 hv'⟩, h1, h2⟩

/-- The items of the defaults. -/
def defaultItems (P : Py) : List (String × V) := (OPTIONS P).map (fun o => (o.1, o.2.default))

theorem lists_defaults (P : Py) : Lists (DEFAULTS P) (defaultItems P) := by
  have hnd : ((OPTIONS P).map Prod.fst).Nodup := by
    show (["user-cache-directory", "temporary-cache-directory-root", "temporary-directory-root", "cache-policy", "maximum-cache-size",
      "maximum-cache-disk-usage", "url-download-timeout", "check-out-of-date-urls", "download-out-of-date-urls",
      "maximum-weights-memory-cache-size", "weights-memory-cache-policy", "weights-memory-cache-strict-mode"] : List String).Nodup
    decide +kernel
  refine ⟨?_, fun k v => ?_⟩
  · unfold defaultItems
    rw [List.map_map]
    exact hnd
  · unfold defaultItems DEFAULTS option
    rw [List.mem_map, Option.map_eq_some_iff]
    constructor
    · rintro ⟨⟨a, o⟩, hm, h⟩
      simp only [Prod.mk.injEq] at h
      obtain ⟨rfl, rfl⟩ := h
      exact ⟨o, (lookup_iff _ hnd _ _).2 hm, rfl⟩
    · rintro ⟨o, ho, rfl⟩
      exact ⟨(k, o), (lookup_iff _ hnd _ _).1 ho, rfl⟩

theorem lists_set (c : Conf) (items : List (String × V)) (h : Lists c items) (k : String) (v w : V) (hk : c k = some w) :
    Lists (c.set k v) (items.map (fun e => if e.1 = k then (k, v) else e)) := by
  have hfst : (items.map (fun e => if e.1 = k then (k, v) else e)).map Prod.fst = items.map Prod.fst := by
    rw [List.map_map]
    apply List.map_congr_left
    intro e _
    simp only [Function.comp]
    split
    · rename_i h; exact h.symm
    · rfl
  refine ⟨by rw [hfst]; exact h.1, fun k' v' => ?_⟩
  rw [List.mem_map]
  unfold Conf.set
  constructor
  · rintro ⟨⟨a, x⟩, hm, he⟩
    simp only at he
    split at he
    · cases he; rw [if_pos rfl]
    · rename_i hne
      cases he
      rw [if_neg hne]; exact (h.2 _ _).1 hm
  · intro hv
    split at hv
    · rename_i hk'
      cases hv
      exact ⟨(k, w), (h.2 _ _).2 hk, by simp [hk']⟩
    · rename_i hne
      exact ⟨(k', v'), (h.2 _ _).2 hv, by simp [hne]⟩

/-- The environment with one variable. -/
def oneVar (n t : List Char) : Env := fun m => if m = n then some t else none

/-- **C113 refuted for `dump()`**: it shows what is stored, also when a variable decides. -/
theorem C113_dump_refuted : ∃ (s : St) (items : List (String × V)),
    s = (run py quiet (.act (.reset none)) (start py "/cfg" "/old" (oneVar (envName "cache-policy") "off".toList) (fun _ => none))).2 ∧
    Lists s.top.conf items ∧ ("cache-policy", .str "user".toList) ∈ dumpItems items ∧
    s.view py "cache-policy" = .ok (.str "off".toList) := by
  refine ⟨_, defaultItems py, rfl, lists_defaults py, (sort_perm _).mem_iff.2 ?_, ?_⟩
  · exact ((lists_defaults py).2 _ _).2 (by decide +kernel)
  · decide +kernel

theorem envOf_empty (items : List (String × V)) : envOf (fun _ => none) items = [] := by
  unfold envOf
  simp

/-- **C113 refuted for the text**: a directory named `None` and no directory give the same text. -/
theorem C113_text_refuted : ∃ (a b : List (String × V)) (ca cb : Conf), Lists ca a ∧ Lists cb b ∧
    reprText py (fun _ => none) a = reprText py (fun _ => none) b ∧
    getConf py (fun _ => none) ca "temporary-directory-root" = .ok .none ∧
    getConf py (fun _ => none) cb "temporary-directory-root" = .ok (.str "None".toList) := by
  refine ⟨defaultItems py, _, DEFAULTS py, _, lists_defaults py,
    lists_set _ _ (lists_defaults py) "temporary-directory-root" (.str "None".toList) .none (by decide +kernel), ?_, ?_, ?_⟩
  · unfold reprText
    congr 1
    unfold rows
    rw [envOf_empty, envOf_empty, List.map_map, List.map_map]
    have hsort : sortItems ((defaultItems py).map (fun e => if e.1 = "temporary-directory-root" then ("temporary-directory-root", .str "None".toList) else e)) =
        (sortItems (defaultItems py)).map (fun e => if e.1 = "temporary-directory-root" then ("temporary-directory-root", .str "None".toList) else e) := by
      unfold sortItems
      symm
      apply List.map_mergeSort
      intro a _ b _
      have : ∀ e : String × V, (if e.1 = "temporary-directory-root" then ("temporary-directory-root", V.str "None".toList) else e).1 = e.1 := by
        intro e; split
        · rename_i h; exact h.symm
        · rfl
      rw [this, this]
    rw [hsort, List.map_map]
    apply List.map_congr_left
    intro e he
    have hv := ((lists_defaults py).2 e.1 e.2).1 ((sort_perm _).mem_iff.1 he)
    simp only [Function.comp]
    by_cases h : e.1 = "temporary-directory-root"
    · have : e.2 = .none := by
        rw [h] at hv
        have h2 : DEFAULTS py "temporary-directory-root" = some .none := by decide +kernel
        rw [h2] at hv; exact (Option.some.inj hv).symm
      rw [if_pos h]
      unfold line
      simp only [h, this]
      rfl
    · rw [if_neg h]
  · decide +kernel
  · decide +kernel

/-! ### the hypotheses can be met -/

example : ∃ items, Lists (run py quiet (.act (.reset none)) (start py "/cfg" "/old" (fun _ => none) (fun _ => none))).2.top.conf items ∧
    items.length = 12 := ⟨defaultItems py, lists_defaults py, rfl⟩

/-- The line of one option whose variable is set. -/
example : line py ⟨"cache-policy", some (envName "cache-policy", "off".toList), .str "user".toList, some (.str "user".toList)⟩ =
    "cache-policy: (EARTHKIT_REGRID_CACHE_POLICY=off, user, user)".toList := by decide +kernel

/-- `C113_rows`, `C113_env` -/
example : (∃ row ∈ rows py (oneVar (envName "cache-policy") "off".toList) (defaultItems py), row.name = "cache-policy" ∧
      Tells py (run py quiet (.act (.reset none)) (start py "/cfg" "/old" (oneVar (envName "cache-policy") "off".toList) (fun _ => none))).2 row
        (.oneOf ["off".toList, "temporary".toList, "user".toList])) ∧
    ("cache-policy", ("EARTHKIT_REGRID_CACHE_POLICY".toList, "off".toList)) ∈ envOf (oneVar (envName "cache-policy") "off".toList) (defaultItems py) :=
  ⟨(C113_rows py quiet (.act (.reset none)) "/cfg" "/old" (oneVar (envName "cache-policy") "off".toList) (fun _ => none) _ rfl (defaultItems py)
      (lists_defaults py)).2 "cache-policy" _ rfl,
    (C113_env py quiet (.act (.reset none)) "/cfg" "/old" (oneVar (envName "cache-policy") "off".toList) (fun _ => none) _ rfl (defaultItems py)
      (lists_defaults py) "cache-policy" _ rfl _ _).2 ⟨_, rfl, rfl, by decide +kernel⟩⟩

end Verif.Config.Show
