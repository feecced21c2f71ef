import Verif.Config.Runs
import Verif.Humanize.Props

/-! Properties C16–C25, C77, C78 of the configuration. -/

namespace Verif.Config
open Verif.Humanize

/-! ### A concrete python for the examples -/

def py : Py where
  C := ascii
  strOf
    | .none => "None".toList
    | .bool true => "True".toList
    | .bool false => "False".toList
    | .int i => (toString i).toList
    | .str s => s
    | .other _ => "object".toList
  truthyOther _ := true
  -- object 0 stands for a pathlib.Path
  safeOther n := n != 0
  home := "/home/u".toList
  version := "0.4".toList
  textLt a b := decide (a < b)
  strOf_str _ := rfl
  strOf_false := rfl

/-- No observer raises. -/
def quiet : Raises := fun _ _ => false

/-- The state after start-up without any file. -/
def fresh : St := start py "/cfg" "/old" (fun _ => none) (fun _ => none)

/-- `MemoryCache.update` (memcache.py:284-314): `check` of the policies with a limit raises for a size of None or 0. -/
def memObserver : Raises := fun _ s =>
  match getConf py s.env s.top.conf "weights-memory-cache-policy", getConf py s.env s.top.conf "maximum-weights-memory-cache-size" with
  | .ok (.str p), .ok n => (p == "largest".toList || p == "lru".toList) && (n == V.none || n == V.int 0)
  | _, _ => false

/-! ### Facts used by several properties -/

theorem view_core (P : Py) {s s' : St} (h : SameCore s s') : s'.view P = s.view P := by
  unfold St.view; rw [h.top, h.env]

theorem view_setTop (P : Py) (s : St) (c : Conf) : (s.setTop c).view P = getConf P s.env c := by
  unfold St.view; rw [top_setTop, (setTop_env s c).1]

theorem getConf_other (P : Py) (env : Env) (c c' : Conf) (m : String) (h : c' m = c m) : getConf P env c' m = getConf P env c m := by
  unfold getConf; rw [h]

theorem getConf_value (P : Py) (env : Env) (c : Conf) (name : String) (r : Rule) (hr : ruleOf name = some r)
    (he : env (envName name) = none) (x w : V) (hx : c name = some x)
    (hw : ∀ o, option P name = some o → convert P o.getter o.noneOk x = .ok w) : getConf P env c name = .ok w := by
  obtain ⟨o, ho, _⟩ := option_rule P name r hr
  unfold getConf
  rw [ho, he, hx]
  exact hw o ho

theorem set_result (P : Py) (R : Raises) (req : Req) (s : St) :
    (∃ e, (applyReq P s.top.conf req).1 = some e ∧ set P R req s = (some e, s.setTop (applyReq P s.top.conf req).2.1)) ∨
    ((applyReq P s.top.conf req).1 = none ∧
      set P R req s = changedN P R (applyReq P s.top.conf req).2.2 (s.setTop (applyReq P s.top.conf req).2.1)) := by
  unfold set
  generalize applyReq P s.top.conf req = x
  obtain ⟨e, c, n⟩ := x
  cases e with
  | some e => exact Or.inl ⟨e, rfl, rfl⟩
  | none => exact Or.inr ⟨rfl, rfl⟩

/-- `setMany` succeeds exactly if every pair is acceptable. -/
theorem setMany_ok_iff (P : Py) (kvs : List (String × V)) (c : Conf) :
    (setMany P c kvs).1 = none ↔ ∀ kv ∈ kvs, Acceptable P kv.1 kv.2 := by
  induction kvs generalizing c with
  | nil => simp [setMany]
  | cons kv kvs ih =>
    obtain ⟨k, v⟩ := kv
    unfold setMany
    cases h : setOne P c k [v] false with
    | error e =>
      simp only [reduceCtorEq, List.mem_cons, forall_eq_or_imp, false_iff, not_and]
      rintro ⟨r, w, h1, h2⟩
      have := setOne_rule P c k r h1 v
      rw [h2] at this
      obtain ⟨x, hx, _⟩ := this
      rw [hx] at h; cases h
    | ok c' =>
      simp only [List.mem_cons, forall_eq_or_imp]
      rw [ih c']
      obtain ⟨r, v', w, x, h1, h2, _, h4, _⟩ := setOne_ok P c c' k _ _ h
      cases h2
      exact ⟨fun h => ⟨⟨r, w, h1, h4⟩, h⟩, fun h => h.2⟩

theorem setMany_err (P : Py) (kvs : List (String × V)) (c : Conf) : (setMany P c kvs).1 ≠ some .observer := by
  induction kvs generalizing c with
  | nil => simp [setMany]
  | cons kv kvs ih =>
    obtain ⟨k, v⟩ := kv
    unfold setMany
    cases h : setOne P c k [v] false with
    | error e => simpa using setOne_error P c k _ _ e h
    | ok c' => exact ih c'

theorem applyReq_err (P : Py) (c : Conf) (r : Req) : (applyReq P c r).1 ≠ some .observer := by
  cases r with
  | kw kvs =>
    cases kvs with
    | nil => simp [applyReq]
    | cons kv kvs =>
      have := setMany_err P ((kv :: kvs).map (fun p => (dashed p.1, p.2))) c
      unfold applyReq
      simp only
      generalize setMany P c ((kv :: kvs).map (fun p => (dashed p.1, p.2))) = x at *
      obtain ⟨e, c'⟩ := x
      cases e <;> simp_all
  | dict kvs =>
    have := setMany_err P kvs c
    unfold applyReq
    simp only
    generalize setMany P c kvs = x at *
    obtain ⟨e, c'⟩ := x
    cases e <;> simp_all
  | pos name args kw =>
    unfold applyReq
    simp only
    cases h : setOne P c name args kw with
    | error e => simpa using setOne_error P c name _ _ e h
    | ok c' => simp

/-- What a successful `setMany` with distinct names leaves behind. -/
theorem setMany_values (P : Py) (kvs : List (String × V)) (c c' : Conf) (hn : (kvs.map Prod.fst).Nodup)
    (h : setMany P c kvs = (none, c')) :
    (∀ kv ∈ kvs, ∃ r w x, ruleOf kv.1 = some r ∧ r.apply P kv.2 = some w ∧ c' kv.1 = some x ∧
      ∀ o, option P kv.1 = some o → convert P o.getter o.noneOk x = .ok w) ∧
    ∀ m, m ∉ kvs.map Prod.fst → c' m = c m := by
  induction kvs generalizing c with
  | nil => cases h; simp
  | cons kv kvs ih =>
    obtain ⟨k, v⟩ := kv
    unfold setMany at h
    rw [List.map_cons, List.nodup_cons] at hn
    cases h1 : setOne P c k [v] false with
    | error e => rw [h1] at h; cases h
    | ok c1 =>
      rw [h1] at h
      obtain ⟨i1, i2⟩ := ih c1 hn.2 h
      obtain ⟨r, v', w, x, g1, g2, _, g4, g5, g6⟩ := setOne_ok P c c1 k _ _ h1
      cases g2
      refine ⟨?_, ?_⟩
      · intro kv hkv
        rcases List.mem_cons.1 hkv with rfl | hkv
        · exact ⟨r, w, x, g1, g4, by rw [i2 k hn.1, g5, set_self], g6⟩
        · exact i1 kv hkv
      · intro m hm
        rw [List.map_cons, List.mem_cons, not_or] at hm
        rw [i2 m hm.2, g5, set_other _ _ _ _ hm.1]

theorem applyReq_kw (P : Py) (c : Conf) (l : List (String × V)) (h : l ≠ []) :
    applyReq P c (.kw l) = ((setMany P c (l.map (fun p => (dashed p.1, p.2)))).1,
      (setMany P c (l.map (fun p => (dashed p.1, p.2)))).2,
      if (setMany P c (l.map (fun p => (dashed p.1, p.2)))).1 = none then 2 else 0) := by
  cases l with
  | nil => exact absurd rfl h
  | cons kv l =>
    unfold applyReq
    simp only
    generalize setMany P c ((kv :: l).map (fun p => (dashed p.1, p.2))) = x
    obtain ⟨e, c'⟩ := x
    cases e <;> simp

theorem dashed_keyword (name : String) (r : Rule) (h : ruleOf name = some r) : dashed (keywordName name) = name := by
  unfold ruleOf at h
  split at h <;> first | (cases h; done) | decide +kernel

/-! ### C16: set then get -/

/-- After `set(name, v)`, whether or not an observer raised, `name` reads as its rule says and nothing else changed. -/
theorem C16_set_get (P : Py) (R : Raises) (s s' : St) (name : String) (r : Rule) (v : V) (e : Option Err)
    (hr : ruleOf name = some r) (he : s.noVar name) (h : set P R (.pos name [v] false) s = (e, s'))
    (hok : e = none ∨ e = some .observer) :
    ∃ w, r.apply P v = some w ∧ s'.view P name = .ok w ∧ ∀ m, m ≠ name → s'.view P m = s.view P m := by
  have hrule := setOne_rule P s.top.conf name r hr v
  cases ha : r.apply P v with
  | none =>
    rw [ha] at hrule
    simp only [set, applyReq, hrule] at h
    cases h
    rcases hok with h | h <;> cases h
  | some w =>
    rw [ha] at hrule
    obtain ⟨x, hx, hc⟩ := hrule
    simp only [set, applyReq, hx] at h
    have hv : s'.view P = getConf P s.env (s.top.conf.set name x) := by
      rw [← view_setTop P s, ← view_core P (changedN_core P R 1 (s.setTop (s.top.conf.set name x))), h]
    refine ⟨w, rfl, ?_, ?_⟩
    · rw [hv]; exact getConf_value P _ _ name r hr he x w (set_self _ _ _) hc
    · intro m hm; rw [hv]; exact getConf_other P _ _ _ m (set_other _ _ _ _ hm)

/-- It is refused, with ValueError, exactly if the rule does not take the value; names not documented give KeyError. -/
theorem C16_accepted (P : Py) (R : Raises) (s : St) (name : String) (v : V) :
    (∀ r, ruleOf name = some r → ((set P R (.pos name [v] false) s).1 = some .value ↔ r.apply P v = none)) ∧
    (ruleOf name = none → set P R (.pos name [v] false) s = (some .key, s)) := by
  refine ⟨?_, ?_⟩
  · intro r hr
    have hrule := setOne_rule P s.top.conf name r hr v
    cases ha : r.apply P v with
    | none => rw [ha] at hrule; simp [set, applyReq, hrule]
    | some w =>
      rw [ha] at hrule
      obtain ⟨x, hx, hc⟩ := hrule
      simp only [set, applyReq, hx]
      refine iff_of_false ?_ (by simp)
      intro h
      have := changedN_err P R 1 _ _ h
      cases this
  · intro hr
    simp only [set, applyReq, setOne_unknown P _ name hr]
    rw [setTop_top]

/-- Several options at once, as a dict with distinct names. -/
theorem C16_dict (P : Py) (R : Raises) (s s' : St) (kvs : List (String × V)) (e : Option Err)
    (hn : (kvs.map Prod.fst).Nodup) (h : set P R (.dict kvs) s = (e, s')) (hok : e = none ∨ e = some .observer) :
    (∀ kv ∈ kvs, ∃ r w, ruleOf kv.1 = some r ∧ r.apply P kv.2 = some w ∧ (s.noVar kv.1 → s'.view P kv.1 = .ok w)) ∧
    ∀ m, m ∉ kvs.map Prod.fst → s'.view P m = s.view P m := by
  simp only [set, applyReq] at h
  have herr := setMany_err P kvs s.top.conf
  cases hm : setMany P s.top.conf kvs with
  | mk e' c' =>
    rw [hm] at h herr
    cases e' with
    | some e' =>
      cases h
      rcases hok with h | h
      · cases h
      · exact absurd h herr
    | none =>
      simp only at h
      obtain ⟨h1, h2⟩ := setMany_values P kvs s.top.conf c' hn hm
      have hv : s'.view P = getConf P s.env c' := by
        rw [← view_setTop P s, ← view_core P (changedN_core P R 1 (s.setTop c')), h]
      refine ⟨?_, ?_⟩
      · intro kv hkv
        obtain ⟨r, w, x, g1, g2, g3, g4⟩ := h1 kv hkv
        exact ⟨r, w, g1, g2, fun he => by rw [hv]; exact getConf_value P _ _ kv.1 r g1 he x w g3 g4⟩
      · intro m hm'; rw [hv]; exact getConf_other P _ _ _ m (h2 m hm')

/-- Several options at once, as keywords: `a_b=v` sets `a-b`. -/
theorem C16_keywords (P : Py) (R : Raises) (s s' : St) (kvs : List (String × V)) (e : Option Err)
    (hd : ∀ kv ∈ kvs, (ruleOf kv.1).isSome) (hn : (kvs.map Prod.fst).Nodup) (hne : kvs ≠ [])
    (h : set P R (.kw (kvs.map (fun kv => (keywordName kv.1, kv.2)))) s = (e, s')) (hok : e = none ∨ e = some .observer) :
    (∀ kv ∈ kvs, ∃ r w, ruleOf kv.1 = some r ∧ r.apply P kv.2 = some w ∧ (s.noVar kv.1 → s'.view P kv.1 = .ok w)) ∧
    ∀ m, m ∉ kvs.map Prod.fst → s'.view P m = s.view P m := by
  have hmap : (kvs.map (fun kv => (keywordName kv.1, kv.2))).map (fun p => (dashed p.1, p.2)) = kvs := by
    rw [List.map_map]
    conv => rhs; rw [← List.map_id kvs]
    refine List.map_congr_left ?_
    intro kv hkv
    obtain ⟨r, hr⟩ := Option.isSome_iff_exists.1 (hd kv hkv)
    simp [dashed_keyword kv.1 r hr]
  have happ := applyReq_kw P s.top.conf (kvs.map (fun kv => (keywordName kv.1, kv.2))) (by simpa using hne)
  rw [hmap] at happ
  simp only [set, happ] at h
  have herr := setMany_err P kvs s.top.conf
  cases hm : setMany P s.top.conf kvs with
  | mk e' c' =>
    rw [hm] at h herr
    cases e' with
    | some e' =>
      cases h
      rcases hok with h | h
      · cases h
      · exact absurd h herr
    | none =>
      simp only at h
      obtain ⟨h1, h2⟩ := setMany_values P kvs s.top.conf c' hn hm
      have hv : s'.view P = getConf P s.env c' := by
        rw [← view_setTop P s, ← view_core P (changedN_core P R _ (s.setTop c')), h]
      refine ⟨?_, ?_⟩
      · intro kv hkv
        obtain ⟨r, w, x, g1, g2, g3, g4⟩ := h1 kv hkv
        exact ⟨r, w, g1, g2, fun he => by rw [hv]; exact getConf_value P _ _ kv.1 r g1 he x w g3 g4⟩
      · intro m hm'; rw [hv]; exact getConf_other P _ _ _ m (h2 m hm')

example : (set py quiet (.pos "maximum-cache-size" [.str "2K".toList] false) fresh).2.view py "maximum-cache-size" = .ok (.int 2048) := by
  decide +kernel
example : (set py quiet (.kw [("cache_policy", .str "off".toList), ("check_out_of_date_urls", .int 1)]) fresh).1 = none := by
  decide +kernel

/-- `C16_set_get` -/
example : ∃ w, (set py quiet (.pos "maximum-cache-size" [.str "2K".toList] false) fresh).2.view py "maximum-cache-size" = .ok w ∧
    ∀ m, m ≠ "maximum-cache-size" →
      (set py quiet (.pos "maximum-cache-size" [.str "2K".toList] false) fresh).2.view py m = fresh.view py m := by
  obtain ⟨w, _, h2, h3⟩ := C16_set_get py quiet fresh _ "maximum-cache-size" _ (.str "2K".toList) none rfl rfl
    (Prod.ext (by decide +kernel) rfl) (.inl rfl)
  exact ⟨w, h2, h3⟩

/-- `C16_dict` -/
example : ∀ m, m ∉ ["cache-policy", "url-download-timeout"] →
    (set py quiet (.dict [("cache-policy", .str "off".toList), ("url-download-timeout", .str "2m".toList)]) fresh).2.view py m = fresh.view py m :=
  (C16_dict py quiet fresh _ [("cache-policy", .str "off".toList), ("url-download-timeout", .str "2m".toList)] none (by decide)
    (Prod.ext (by decide +kernel) rfl) (.inl rfl)).2

/-- `C16_keywords` -/
example : ∃ r w, ruleOf "cache-policy" = some r ∧ r.apply py (.str "off".toList) = some w ∧ (fresh.noVar "cache-policy" →
    (set py quiet (.kw ([("cache-policy", V.str "off".toList), ("check-out-of-date-urls", .int 1)].map (fun kv => (keywordName kv.1, kv.2)))) fresh).2.view py
      "cache-policy" = .ok w) :=
  (C16_keywords py quiet fresh _ [("cache-policy", .str "off".toList), ("check-out-of-date-urls", .int 1)] none (by decide) (by decide) (by simp)
    (Prod.ext (by decide +kernel) rfl) (.inl rfl)).1 _ (List.mem_cons_self)

end Verif.Config
