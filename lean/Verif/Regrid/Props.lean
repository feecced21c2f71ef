import Verif.Regrid.Handlers
import Verif.Regrid.SparseProps

/-! # C48–C51: handlers, backends and options -/

namespace Verif.Regrid
open Verif.GridSpec (V Dict Py GS fromDict Kind Heap)

/-! ### C49: routing -/

/-- The documented handler of each supported kind of input. -/
def documented : Cls → Option Handler
  | .fieldList => some .fieldList
  | .field => some .field
  | .bytes => some .grib
  | .bytesIO => some .grib
  | .dataArray => some .xarray
  | .dataset => some .xarray
  | .ndarray => none

/-- The module that defines the class has been imported. -/
def Available (m : Modules) : Cls → Prop
  | .fieldList | .field => m.earthkitData = true ∧ m.earthkitDataImports = true
  | .dataArray | .dataset => m.xarray = true ∧ m.xarrayImports = true
  | _ => True

/-- An object of one kind (and whatever else the program has loaded) goes to the documented handler; arrays are refused. -/
theorem C49_routed (m : Modules) (v : Obj) (c : Cls) (hc : ∀ d, v.isa d = true ↔ d = c) (ha : Available m c) :
    route m v = match (generalizing := false) documented c with
      | some h => .ok h
      | none => .error .value := by
  have hb : ∀ d, v.isa d = decide (d = c) := by
    intro d
    rw [Bool.eq_iff_iff, hc d]
    simp
  unfold route getDataHandler DATA_HANDLERS
  cases c <;> simp only [Available] at ha <;>
    simp [Handler.matches, matchFieldList, matchField, matchGrib, matchXarray, hb, documented, ha]

/-- An object of no supported kind is refused with ValueError, whatever is loaded. -/
theorem C49_unsupported (m : Modules) (v : Obj) (hc : ∀ d, v.isa d = true → documented d = none) : route m v = .error .value := by
  have hb : ∀ d, documented d ≠ none → v.isa d = false := by
    intro d hd
    cases h : v.isa d with
    | false => rfl
    | true => exact absurd (hc d h) hd
  unfold route getDataHandler DATA_HANDLERS
  have h1 := hb .fieldList (by decide)
  have h2 := hb .field (by decide)
  have h3 := hb .bytes (by decide)
  have h4 := hb .bytesIO (by decide)
  have h5 := hb .dataArray (by decide)
  have h6 := hb .dataset (by decide)
  simp [Handler.matches, matchFieldList, matchField, matchGrib, matchXarray, h1, h2, h3, h4, h5, h6]

/-- No other handler claims an object of one kind. -/
theorem C49_only_one (m : Modules) (v : Obj) (c : Cls) (hc : ∀ d, v.isa d = true ↔ d = c) (h h' : Handler)
    (h1 : h.matches m v = true) (h2 : h'.matches m v = true) : h = h' := by
  have hb : ∀ d, v.isa d = decide (d = c) := by
    intro d
    rw [Bool.eq_iff_iff, hc d]
    simp
  cases h <;> cases h' <;> cases c <;>
    simp [Handler.matches, matchFieldList, matchField, matchGrib, matchXarray, hb] at h1 h2 <;> rfl

/-- The deprecated `interpolate` takes arrays and field lists, nothing else of one kind. -/
theorem C49_interpolate (m : Modules) (v : Obj) (c : Cls) (hc : ∀ d, v.isa d = true ↔ d = c) (ha : Available m c) :
    routeInterpolate m v = match (generalizing := false) c with
      | .ndarray => .ok .numpy
      | .fieldList => .ok .fieldList
      | _ => .error .value := by
  have hb : ∀ d, v.isa d = decide (d = c) := by
    intro d
    rw [Bool.eq_iff_iff, hc d]
    simp
  unfold routeInterpolate
  cases c <;> simp only [Available] at ha <;> simp [Handler.matches, matchFieldList, hb, ha]

/-- `C49_routed`: a dataset, with both packages loaded. -/
example : route ⟨true, true, true, true⟩ ⟨fun c => c = .dataset⟩ = .ok .xarray :=
  C49_routed ⟨true, true, true, true⟩ ⟨fun c => c = .dataset⟩ .dataset (by simp) ⟨rfl, rfl⟩

/-- `C49_unsupported`: an array, and something of no class the handlers know. -/
example : route ⟨true, true, true, true⟩ ⟨fun c => c = .ndarray⟩ = .error .value ∧ route ⟨true, true, true, true⟩ ⟨fun _ => false⟩ = .error .value :=
  ⟨C49_unsupported _ _ (by intro d hd; simp at hd; subst hd; rfl), C49_unsupported _ _ (by simp)⟩

/-- `C49_only_one`: a field is claimed, by one handler. -/
example : ∃! h : Handler, h.matches ⟨true, true, true, true⟩ ⟨fun c => c = .field⟩ = true :=
  ⟨.field, by decide, fun h hh => C49_only_one ⟨true, true, true, true⟩ ⟨fun c => c = .field⟩ .field (by simp) h .field hh (by decide)⟩

example : route ⟨true, true, false, true⟩ ⟨fun c => c = .field⟩ = .ok .field := by decide
example : route ⟨true, true, true, true⟩ ⟨fun c => c = .ndarray⟩ = .error .value := by decide
example : Available ⟨true, true, false, true⟩ .field := ⟨rfl, rfl⟩

/-! ### C50: backends -/

/-- What the table of backends keeps true. -/
structure MakerInv (m : Maker) : Prop where
  below : ∀ o ∈ m.objects, o.2.1 < m.next
  ids : ∀ o ∈ m.objects, ∀ o' ∈ m.objects, o.2.1 = o'.2.1 → o = o'
  keys : ∀ o ∈ m.objects, ∀ o' ∈ m.objects, o.1 = o'.1 → o = o'
  made : ∀ o ∈ m.objects, ∃ c, makeKey c = o.1 ∧ construct c = .ok o.2.2

theorem getBackend_inv (c : GetCall) (m : Maker) (h : MakerInv m) : MakerInv (getBackend c m).2 := by
  unfold getBackend
  split
  · exact h
  · cases hf : m.objects.find? (fun o => o.1 = makeKey c) with
    | some o => exact h
    | none =>
      simp only
      cases hc : construct c with
      | error e => exact h
      | ok b =>
        have hno : ∀ o ∈ m.objects, o.1 ≠ makeKey c := by
          intro o ho he
          have := List.find?_eq_none.1 hf o ho
          simp [he] at this
        simp only
        refine ⟨?_, ?_, ?_, ?_⟩
        · intro o ho
          rcases List.mem_append.1 ho with ho | ho
          · exact Nat.lt_succ_of_lt (h.below o ho)
          · rw [List.mem_singleton.1 ho]; exact Nat.lt_succ_self _
        · intro o ho o' ho' he
          rcases List.mem_append.1 ho with ho | ho <;> rcases List.mem_append.1 ho' with ho' | ho'
          · exact h.ids o ho o' ho' he
          · rw [List.mem_singleton.1 ho'] at he; have := h.below o ho; simp at he; omega
          · rw [List.mem_singleton.1 ho] at he; have := h.below o' ho'; simp at he; omega
          · rw [List.mem_singleton.1 ho, List.mem_singleton.1 ho']
        · intro o ho o' ho' he
          rcases List.mem_append.1 ho with ho | ho <;> rcases List.mem_append.1 ho' with ho' | ho'
          · exact h.keys o ho o' ho' he
          · rw [List.mem_singleton.1 ho'] at he; exact absurd he (hno o ho)
          · rw [List.mem_singleton.1 ho] at he; exact absurd he.symm (hno o' ho')
          · rw [List.mem_singleton.1 ho, List.mem_singleton.1 ho']
        · intro o ho
          rcases List.mem_append.1 ho with ho | ho
          · exact h.made o ho
          · rw [List.mem_singleton.1 ho]; exact ⟨c, rfl, hc⟩

theorem getBackends_inv (cs : List GetCall) (m : Maker) (h : MakerInv m) : MakerInv (getBackends cs m) := by
  unfold getBackends
  induction cs generalizing m with
  | nil => exact h
  | cons c cs ih => rw [List.foldl_cons]; exact ih _ (getBackend_inv c m h)

theorem initial_inv : MakerInv Maker.initial := ⟨by simp [Maker.initial], by simp [Maker.initial], by simp [Maker.initial], by simp [Maker.initial]⟩

theorem getBackend_ok (c : GetCall) (m m' : Maker) (n : Nat) (b : BackendObj) (h : getBackend c m = (.ok (n, b), m')) :
    (makeKey c, n, b) ∈ m'.objects ∧ (makeKey c).rest.all PV.hashable = true := by
  unfold getBackend at h
  split at h
  · cases h
  · rename_i hh
    refine ⟨?_, by simpa using hh⟩
    cases hf : m.objects.find? (fun o => o.1 = makeKey c) with
    | some o =>
      rw [hf] at h
      simp only [Prod.mk.injEq, Except.ok.injEq] at h
      obtain ⟨h1, rfl⟩ := h
      have hm := List.mem_of_find?_eq_some hf
      have hk : o.1 = makeKey c := by simpa using List.find?_some hf
      rw [← hk, ← h1]
      exact hm
    | none =>
      rw [hf] at h
      simp only at h
      cases hc : construct c with
      | error e => rw [hc] at h; cases h
      | ok b' =>
        rw [hc] at h
        simp only [Prod.mk.injEq, Except.ok.injEq] at h
        obtain ⟨⟨rfl, rfl⟩, rfl⟩ := h
        simp

theorem objects_stay (cs : List GetCall) (m : Maker) : ∀ o ∈ m.objects, o ∈ (getBackends cs m).objects := by
  unfold getBackends
  induction cs generalizing m with
  | nil => intro o h; exact h
  | cons c cs ih =>
    intro o h
    rw [List.foldl_cons]
    apply ih
    unfold getBackend
    split
    · exact h
    · split
      · exact h
      · split
        · exact h
        · exact List.mem_append_left _ h

/-- The same arguments give the same object, whatever is asked for before and in between. -/
theorem C50_same_object (before between : List GetCall) (c : GetCall) (n : Nat) (b : BackendObj)
    (h : (getBackend c (getBackends before Maker.initial)).1 = .ok (n, b)) :
    (getBackend c (getBackends between (getBackend c (getBackends before Maker.initial)).2)).1 = .ok (n, b) := by
  have hinv := getBackends_inv before _ initial_inv
  generalize getBackends before Maker.initial = m at *
  obtain ⟨hm, hh⟩ := getBackend_ok c m _ n b (Prod.ext h rfl)
  have hi2 := getBackends_inv between _ (getBackend_inv c m hinv)
  have hmem := objects_stay between _ _ hm
  generalize getBackends between (getBackend c m).2 = m2 at *
  unfold getBackend
  rw [hh]
  simp only [Bool.not_true, Bool.false_eq_true, if_false]
  cases hf : m2.objects.find? (fun o => o.1 = makeKey c) with
  | none => have := List.find?_eq_none.1 hf _ hmem; simp at this
  | some o =>
    have hk : o.1 = makeKey c := by simpa using List.find?_some hf
    have := hi2.keys o (List.mem_of_find?_eq_some hf) _ hmem hk
    rw [this]

/-- `get_backend(name, inventory=...)`, as the handlers call it. -/
def withInventory (name : List Char) (inv : Atom) : GetCall := ⟨name, [], [("inventory".toList, inv)]⟩

/-- Different inventories give different objects. -/
theorem C50_different_objects (before between : List GetCall) (name : List Char) (i i' : Atom) (hne : i ≠ i') (n n' : Nat) (b b' : BackendObj)
    (h : (getBackend (withInventory name i) (getBackends before Maker.initial)).1 = .ok (n, b))
    (h' : (getBackend (withInventory name i') (getBackends between (getBackend (withInventory name i) (getBackends before Maker.initial)).2)).1 = .ok (n', b')) :
    n ≠ n' := by
  have hinv := getBackends_inv before _ initial_inv
  generalize getBackends before Maker.initial = m at *
  obtain ⟨hm, _⟩ := getBackend_ok _ m _ n b (Prod.ext h rfl)
  have hi2 := getBackends_inv between _ (getBackend_inv (withInventory name i) m hinv)
  have hmem := objects_stay between _ _ hm
  generalize getBackends between (getBackend (withInventory name i) m).2 = m2 at *
  obtain ⟨hm', _⟩ := getBackend_ok _ m2 _ n' b' (Prod.ext h' rfl)
  have hi3 := getBackend_inv (withInventory name i') m2 hi2
  have hmem' := objects_stay [withInventory name i'] m2 _ hmem
  simp only [getBackends, List.foldl_cons, List.foldl_nil] at hmem'
  intro he
  have := hi3.ids _ hmem' _ hm' he
  have hk := congrArg Prod.fst this
  simp only [makeKey, withInventory, List.map_cons, List.map_nil, List.nil_append, Key.mk.injEq, true_and, List.cons.injEq, and_true,
    PV.tuple.injEq] at hk
  exact hne hk

/-- The object for an inventory has that inventory: the given path or url, the system's if none or "ecmwf" is asked for. -/
theorem C50_right_inventory (before : List GetCall) (s : List Char) (n : Nat) (b : BackendObj)
    (h : (getBackend (withInventory "precomputed".toList (.str s)) (getBackends before Maker.initial)).1 = .ok (n, b)) :
    b = .precomputed (if s = "ecmwf".toList then .system
      else if "http://".toList <+: s ∨ "https://".toList <+: s then .url s else .path s) := by
  have hinv := getBackends_inv before _ initial_inv
  generalize getBackends before Maker.initial = m at *
  obtain ⟨hm, _⟩ := getBackend_ok _ m _ n b (Prod.ext h rfl)
  obtain ⟨c, hk, hc⟩ := (getBackend_inv _ m hinv).made _ hm
  simp only at hk hc
  have hn : c.name = "precomputed".toList := congrArg Key.name hk
  have hr : c.args ++ c.kwargs.map (fun p => PV.tuple [.str p.1, p.2]) = [.tuple [.str "inventory".toList, .str s]] := congrArg Key.rest hk
  unfold construct at hc
  rw [if_neg (by rw [hn]; decide), if_pos hn] at hc
  have hcases : (c.args = [] ∧ c.kwargs = [("inventory".toList, .str s)]) ∨ (c.args = [.tuple [.str "inventory".toList, .str s]] ∧ c.kwargs = []) := by
    cases ha : c.args with
    | nil =>
      left
      rw [ha] at hr
      cases hkw : c.kwargs with
      | nil => rw [hkw] at hr; simp at hr
      | cons p ps =>
        rw [hkw] at hr
        simp only [List.nil_append, List.map_cons, List.cons.injEq, List.map_eq_nil_iff, PV.tuple.injEq, Atom.str.injEq, and_true] at hr
        obtain ⟨⟨h1, h2⟩, rfl⟩ := hr
        exact ⟨rfl, by rw [← h1, ← h2]⟩
    | cons a as =>
      right
      rw [ha] at hr
      simp only [List.cons_append, List.cons.injEq, List.append_eq_nil_iff, List.map_eq_nil_iff] at hr
      obtain ⟨h1, h2, h3⟩ := hr
      rw [h1, h2, h3]
      exact ⟨rfl, rfl⟩
  rcases hcases with ⟨h1, h2⟩ | ⟨h1, h2⟩
  · rw [h1, h2] at hc
    simp only [if_true, getDb] at hc
    by_cases he : s = "ecmwf".toList
    · simp only [he, if_true, Except.map] at hc
      cases hc
      simp [he]
    · simp only [he, if_false] at hc ⊢
      by_cases hu : "http://".toList <+: s ∨ "https://".toList <+: s
      · have hb : (startsWith "http://".toList s || startsWith "https://".toList s) = true := by
          simpa [startsWith, List.isPrefixOf_iff_prefix] using hu
        rw [if_pos hb] at hc
        simp only [Except.map] at hc
        cases hc
        simp only [hu, if_true]
      · have hb : ¬ (startsWith "http://".toList s || startsWith "https://".toList s) = true := by
          intro hb
          exact hu (by simpa [startsWith, List.isPrefixOf_iff_prefix] using hb)
        rw [if_neg hb] at hc
        by_cases h0 : s ≠ []
        · rw [if_pos h0] at hc
          simp only [Except.map] at hc
          cases hc
          simp only [hu, if_false]
        · rw [if_neg h0] at hc
          cases hc
  · rw [h1, h2] at hc
    simp [getDb, Except.map] at hc

/-- Arguments that can be part of a key: not an unhashable value, nor a tuple with one. -/
def CanKey (c : GetCall) : Prop :=
  PV.atom .unhashable ∉ c.args ∧ (∀ xs, PV.tuple xs ∈ c.args → Atom.unhashable ∉ xs) ∧ ∀ p ∈ c.kwargs, p.2 ≠ .unhashable

theorem canKey_iff (c : GetCall) : (makeKey c).rest.all PV.hashable = true ↔ CanKey c := by
  simp only [makeKey, List.all_append, Bool.and_eq_true, List.all_eq_true, List.mem_map, CanKey]
  constructor
  · rintro ⟨h1, h2⟩
    refine ⟨fun h => by simpa [PV.hashable] using h1 _ h, fun xs h hx => ?_, fun p hp h => ?_⟩
    · have := h1 _ h
      simp [PV.hashable] at this
      exact this _ hx rfl
    · have := h2 _ ⟨p, hp, rfl⟩
      simp [PV.hashable, h] at this
  · rintro ⟨h1, h2, h3⟩
    refine ⟨fun a ha => ?_, ?_⟩
    · cases a with
      | atom a =>
        simp only [PV.hashable, bne_iff_ne]
        rintro rfl
        exact h1 ha
      | tuple xs =>
        simp only [PV.hashable, List.all_eq_true, bne_iff_ne]
        rintro x hx rfl
        exact h2 xs ha hx
    · rintro x ⟨p, hp, rfl⟩
      simp [PV.hashable, h3 p hp]

/-- An argument that cannot be part of a key: TypeError, whatever was made before, and nothing is registered. -/
theorem C50_unhashable (c : GetCall) (before : List GetCall) (h : ¬ CanKey c) :
    getBackend c (getBackends before Maker.initial) = (.error .type, getBackends before Maker.initial) := by
  rw [← canKey_iff, Bool.not_eq_true] at h
  unfold getBackend
  rw [h]
  rfl

/-- A dictionary given for the inventory. -/
example : getBackend ⟨"precomputed".toList, [], [("inventory".toList, .unhashable)]⟩ (getBackends [⟨"mir".toList, [], []⟩] Maker.initial) =
    (.error .type, getBackends [⟨"mir".toList, [], []⟩] Maker.initial) := C50_unhashable _ _ (by simp [CanKey])

/-- Unknown names raise ValueError and register nothing; nor does any call that raises. -/
theorem C50_unknown (c : GetCall) (before : List GetCall) (h1 : c.name ≠ "mir".toList) (h2 : c.name ≠ "precomputed".toList)
    (hk : CanKey c) :
    getBackend c (getBackends before Maker.initial) = (.error .value, getBackends before Maker.initial) := by
  have hinv := getBackends_inv before _ initial_inv
  generalize getBackends before Maker.initial = m at *
  have hall := (canKey_iff c).2 hk
  unfold getBackend
  rw [hall]
  simp only [Bool.not_true, Bool.false_eq_true, if_false]
  have hc : ∀ c' : GetCall, c'.name = c.name → construct c' = .error .value := by
    intro c' hc'
    unfold construct
    rw [if_neg (by rw [hc']; exact h1), if_neg (by rw [hc']; exact h2)]
  cases hf : m.objects.find? (fun o => o.1 = makeKey c) with
  | none => simp only [hc c rfl]
  | some o =>
    have hk : o.1 = makeKey c := by simpa using List.find?_some hf
    obtain ⟨c', h3, h4⟩ := hinv.made o (List.mem_of_find?_eq_some hf)
    have : c'.name = c.name := congrArg Key.name (h3.trans hk)
    rw [hc c' this] at h4
    cases h4

theorem C50_failure_registers_nothing (c : GetCall) (m : Maker) (e : Err) (h : (getBackend c m).1 = .error e) : (getBackend c m).2 = m := by
  unfold getBackend at h ⊢
  split
  · rfl
  · rename_i hh
    rw [if_neg hh] at h
    split
    · rfl
    · rename_i hf
      rw [hf] at h
      simp only at h
      split
      · rfl
      · rename_i b hb
        rw [hb] at h
        cases h

example : (getBackend (withInventory "precomputed".toList (.str "/data/inv".toList))
    (getBackends [withInventory "precomputed".toList (.str "ecmwf".toList), ⟨"mir".toList, [], []⟩, ⟨"mir".toList, [], []⟩] Maker.initial)).1 =
    .ok (2, .precomputed (.path "/data/inv".toList)) := by decide
example : (getBackend (withInventory "precomputed".toList (.str [])) Maker.initial).1 = .error .value := by decide
example : (getBackend ⟨"atlas".toList, [], []⟩ Maker.initial).1 = .error .value := by decide

/-- `C50_same_object`: the second inventory asked for, then others, then again. -/
example : (getBackend (withInventory "precomputed".toList (.str "/data/inv".toList))
    (getBackends [⟨"mir".toList, [], []⟩, withInventory "precomputed".toList (.str "https://x".toList)]
      (getBackend (withInventory "precomputed".toList (.str "/data/inv".toList)) (getBackends [⟨"mir".toList, [], []⟩] Maker.initial)).2)).1 =
    .ok (1, .precomputed (.path "/data/inv".toList)) := C50_same_object _ _ _ _ _ (by decide)

/-- `C50_different_objects`: two directories. -/
example : (0 : Nat) ≠ 1 :=
  C50_different_objects [] [⟨"precomputed".toList, [], [("inventory".toList, .str "/a".toList)]⟩] "precomputed".toList (.str "/a".toList) (.str "/b".toList)
    (by decide) 0 1 (.precomputed (.path "/a".toList)) (.precomputed (.path "/b".toList)) (by decide) (by decide)

/-- `C50_right_inventory`: an address, after another backend was made. -/
example : BackendObj.precomputed (.url "http://x/inv".toList) = .precomputed (if "http://x/inv".toList = "ecmwf".toList then .system
      else if "http://".toList <+: "http://x/inv".toList ∨ "https://".toList <+: "http://x/inv".toList then .url "http://x/inv".toList
        else .path "http://x/inv".toList) :=
  C50_right_inventory [⟨"mir".toList, [], []⟩] "http://x/inv".toList 1 _ (by decide)

/-- `C50_unknown`: a backend that does not exist, with an argument. -/
example : getBackend ⟨"atlas".toList, [], [("inventory".toList, .str "/a".toList)]⟩ (getBackends [⟨"mir".toList, [], []⟩] Maker.initial) =
    (.error .value, getBackends [⟨"mir".toList, [], []⟩] Maker.initial) :=
  C50_unknown _ _ (by decide) (by decide) (by simp [CanKey])

/-! ### C51: options reach MIR -/

/-- What the job uses for an option: the last value set. -/
def setTo (job : List (String × Setting)) (k : String) : Option Setting := (job.reverse.find? (fun p => p.1 = k)).map Prod.snd

/-- The options documented for the MIR backend. -/
def MIR_OPTIONS : List String := ["interpolation", "nearest_method", "distance", "distance_tolerance", "nclosest"]

theorem assign_keys {α : Type} (l : List (String × α)) (k : String) (v : α) (h : k ∈ l.map Prod.fst) :
    (assign l k v).map Prod.fst = l.map Prod.fst := by
  induction l with
  | nil => simp at h
  | cons p l ih =>
    obtain ⟨k', v'⟩ := p
    unfold assign
    split
    · rename_i he; simp [he]
    · rename_i he
      simp only [List.map_cons, List.mem_cons] at h ⊢
      rw [ih (h.resolve_left (fun h => he h.symm))]

theorem assign_new {α : Type} (l : List (String × α)) (k : String) (v : α) (h : k ∉ l.map Prod.fst) : assign l k v = l ++ [(k, v)] := by
  induction l with
  | nil => rfl
  | cons p l ih =>
    obtain ⟨k', v'⟩ := p
    simp only [List.map_cons, List.mem_cons, not_or] at h
    unfold assign
    rw [if_neg (fun he => h.1 he.symm), ih h.2]
    rfl

theorem assign_lookup {α : Type} (l : List (String × α)) (k k' : String) (v : α) :
    (assign l k v).lookup k' = if k' = k then some v else l.lookup k' := by
  induction l with
  | nil =>
    simp only [assign, List.lookup_cons, List.lookup_nil]
    by_cases h : k' = k
    · simp [h]
    · simp [h, beq_eq_false_iff_ne.2 h]
  | cons p l ih =>
    obtain ⟨a, b⟩ := p
    unfold assign
    split
    · rename_i he
      subst he
      simp only [List.lookup_cons]
      by_cases h : k' = a
      · simp [h]
      · simp [h, beq_eq_false_iff_ne.2 h]
    · rename_i he
      simp only [List.lookup_cons, ih]
      by_cases h : k' = a
      · subst h; simp [he]
      · simp [beq_eq_false_iff_ne.2 h]

theorem bind_lookup (given opts opts' : List (String × V)) (h : bindOptions given opts = .ok opts') (hn : (given.map Prod.fst).Nodup) :
    opts'.map Prod.fst = opts.map Prod.fst ∧ ∀ k, opts'.lookup k = match (generalizing := false) given.lookup k with
      | some v => some v
      | none => opts.lookup k := by
  induction given generalizing opts with
  | nil => cases h; exact ⟨rfl, fun k => rfl⟩
  | cons p r ih =>
    obtain ⟨a, b⟩ := p
    unfold bindOptions at h
    split at h
    · rename_i hc
      simp only [List.map_cons, List.nodup_cons] at hn
      obtain ⟨h1, h2⟩ := ih _ h hn.2
      have hmem : a ∈ opts.map Prod.fst := by simpa using hc
      rw [assign_keys _ _ _ hmem] at h1
      refine ⟨h1, ?_⟩
      intro k
      rw [h2 k, assign_lookup]
      simp only [List.lookup_cons]
      by_cases hk : k = a
      · subst hk
        have : r.lookup k = none := by
          rw [List.lookup_eq_none_iff]
          intro q hq
          have : k ≠ q.1 := fun he => hn.1 (by rw [he]; exact List.mem_map_of_mem hq)
          simpa using this
        simp [this]
      · simp only [hk, if_false]
        have : (k == a) = false := by simpa using hk
        rw [this]
    · cases h

/-- The values used when nothing is asked for — the defaults documented in docs/guide/mir/regrid_full.rst:8. -/
def mirDefault (k : String) : Option V :=
  if k = "interpolation" then some (.str "linear".toList) else if k = "nearest_method" then some (.str "automatic".toList)
  else if k = "distance" then some (.int 1) else if k = "distance_tolerance" then some (.int 1)
  else if k = "nclosest" then some (.int 4) else none

/-- What the user asked for: given options, defaults for the rest. -/
def Wanted (given : List (String × V)) (k : String) : Option V :=
  match given.lookup k with
  | some v => some v
  | none => mirDefault k

theorem defaults_documented (k : String) : MIR_DEFAULTS.lookup k = mirDefault k := by
  unfold MIR_DEFAULTS mirDefault
  repeat (rw [List.lookup_cons]; split <;> rename_i h <;> first | (rw [if_pos (by simpa using h)]; done) | rw [if_neg (by simpa using h)])
  rfl

theorem uniq {α : Type} (l : List (String × α)) (hn : (l.map Prod.fst).Nodup) (k : String) (v w : α) (h1 : (k, v) ∈ l) (h2 : (k, w) ∈ l) :
    v = w := by
  induction l with
  | nil => simp at h1
  | cons p r ih =>
    simp only [List.map_cons, List.nodup_cons] at hn
    have hno : ∀ x, (p.1, x) ∉ r := fun x hx => hn.1 (List.mem_map.2 ⟨_, hx, rfl⟩)
    rcases List.mem_cons.1 h1 with h3 | h3 <;> rcases List.mem_cons.1 h2 with h4 | h4
    · rw [← h3] at h4; cases h4; rfl
    · rw [← h3] at hno; exact absurd h4 (hno w)
    · rw [← h4] at hno; exact absurd h3 (hno v)
    · exact ih hn.2 h3 h4

theorem setTo_vals (g : Setting) (kw : List (String × V)) (hn : (kw.map Prod.fst).Nodup) (k : String) (v : V) (hk : kw.lookup k = some v) :
    setTo (("grid", g) :: kw.map (fun p => (p.1, Setting.val p.2))) k = some (.val v) := by
  have hmem : (k, v) ∈ kw := by
    induction kw with
    | nil => simp at hk
    | cons p r ih =>
      simp only [List.map_cons, List.nodup_cons] at hn
      obtain ⟨a, b⟩ := p
      rw [List.lookup_cons] at hk
      by_cases he : k = a
      · subst he; simp at hk; subst hk; simp
      · have : (k == a) = false := by simpa using he
        rw [this] at hk
        exact List.mem_cons_of_mem _ (ih hn.2 hk)
  unfold setTo
  rw [List.reverse_cons, List.find?_append]
  have hfind : (kw.map (fun p => (p.1, Setting.val p.2))).reverse.find? (fun p => p.1 = k) = some (k, .val v) := by
    have hsome : ((kw.map (fun p => (p.1, Setting.val p.2))).reverse.find? (fun p => p.1 = k)).isSome := by
      rw [List.find?_isSome]
      exact ⟨(k, .val v), List.mem_reverse.2 (List.mem_map.2 ⟨(k, v), hmem, rfl⟩), by simp⟩
    obtain ⟨q, hq⟩ := Option.isSome_iff_exists.1 hsome
    have h1 : q.1 = k := by simpa using List.find?_some hq
    have h2 : q ∈ kw.map (fun p => (p.1, Setting.val p.2)) := by simpa using List.mem_of_find?_eq_some hq
    obtain ⟨w, hw, rfl⟩ := List.mem_map.1 h2
    have : w.2 = v := uniq kw hn k w.2 v (by rw [← h1]; exact hw) hmem
    simp only at h1
    rw [hq, this, h1]
  rw [hfind]
  rfl

theorem adjust_none (P : Py) (grid : Nat) (kw : List (String × V)) (h : Heap) (ha : h.at_ grid "area" = none) :
    adjustOptions P grid kw h = (.ok (grid, kw), h) := by
  unfold adjustOptions
  rw [ha]

/-- The description a job needs for an area. -/
inductive AreaText (P : Py) : V → V → Prop where
  | text (s : List Char) : AreaText P (.str s) (.str s)
  | list (a b c d : V) : AreaText P (.list [a, b, c, d]) (.str (P.pyStr a ++ '/' :: P.pyStr b ++ '/' :: P.pyStr c ++ '/' :: P.pyStr d))
  | tuple (a b c d : V) : AreaText P (.tuple [a, b, c, d]) (.str (P.pyStr a ++ '/' :: P.pyStr b ++ '/' :: P.pyStr c ++ '/' :: P.pyStr d))

theorem normalise_iff (P : Py) (a t : V) : normaliseArea P a = .ok t ↔ AreaText P a t := by
  constructor
  · intro h
    unfold normaliseArea at h
    split at h
    · cases h; exact .text _
    · rename_i xs
      split at h
      · rename_i hl
        obtain ⟨x1, x2, x3, x4, rfl⟩ : ∃ a b c d, xs = [a, b, c, d] := by
          match xs, hl with
          | [a, b, c, d], _ => exact ⟨a, b, c, d, rfl⟩
        cases h
        have := AreaText.list (P := P) x1 x2 x3 x4
        simpa [joinSlash] using this
      · cases h
    · rename_i xs
      split at h
      · rename_i hl
        obtain ⟨x1, x2, x3, x4, rfl⟩ : ∃ a b c d, xs = [a, b, c, d] := by
          match xs, hl with
          | [a, b, c, d], _ => exact ⟨a, b, c, d, rfl⟩
        cases h
        have := AreaText.tuple (P := P) x1 x2 x3 x4
        simpa [joinSlash] using this
      · cases h
    · cases h
  · intro h
    cases h <;> simp [normaliseArea, joinSlash]

theorem adjust_some (P : Py) (grid : Nat) (kw : List (String × V)) (h : Heap) (area : V) (ha : h.at_ grid "area" = some area) :
    ∃ h', (∀ r, r < h.next → h'.at_ r = h.at_ r) ∧ h'.at_ h.next = (h.at_ grid).erase "area" ∧
      ((∃ t, AreaText P area t ∧ adjustOptions P grid kw h = (.ok (h.next, assign kw "area" t), h')) ∨
       ((¬ ∃ t, AreaText P area t) ∧ ∃ e, adjustOptions P grid kw h = (.error e, h'))) := by
  refine ⟨((h.alloc (h.at_ grid)).2).modify h.next (fun d => d.erase "area"), ?_, ?_, ?_⟩
  · intro r hr
    have : r ≠ h.next := by omega
    simp [Heap.modify, Heap.alloc, this]
  · simp [Heap.modify, Heap.alloc]
  · unfold adjustOptions
    rw [ha]
    cases hn : normaliseArea P area with
    | ok t => left; refine ⟨t, (normalise_iff P area t).1 hn, ?_⟩; simp only [hn]; rfl
    | error e =>
      right
      refine ⟨?_, e, by simp only [hn]; rfl⟩
      rintro ⟨t, ht⟩
      rw [(normalise_iff P area t).2 ht] at hn
      cases hn

/-- The grid of the job: the requested one without its area. -/
def withoutArea (d : Dict) : Dict := fun k => if k = "area" then none else d k

/-- GRIB and field lists: every option, given or default, is set on the job; the grid goes without its area, the area as text
in an option of its own. -/
theorem C51_grib (P : Py) (grid : Nat) (given : List (String × V)) (h h' : Heap) (job : List (String × Setting))
    (hn : (given.map Prod.fst).Nodup) (hj : jobGrib P grid given h = (.ok job, h')) :
    (∀ k ∈ MIR_OPTIONS, ∃ v, Wanted given k = some v ∧ setTo job k = some (.val v)) ∧
    setTo job "grid" = some (.grid (withoutArea (h.at_ grid))) ∧
    (∀ area, h.at_ grid "area" = some area → ∃ t, AreaText P area t ∧ setTo job "area" = some (.val t)) ∧
    (h.at_ grid "area" = none → setTo job "area" = none) := by
  unfold jobGrib at hj
  cases hb : bindOptions given MIR_DEFAULTS with
  | error e => rw [hb] at hj; cases hj
  | ok opts =>
    rw [hb] at hj
    simp only at hj
    obtain ⟨hkeys, hlook⟩ := bind_lookup given MIR_DEFAULTS opts hb hn
    have hw : ∀ k, opts.lookup k = Wanted given k := by
      intro k; rw [hlook k, defaults_documented]; unfold Wanted; cases given.lookup k <;> rfl
    have hdef : ∀ k ∈ MIR_OPTIONS, ∃ v, Wanted given k = some v := by
      intro k hk
      unfold Wanted
      cases given.lookup k with
      | some v => exact ⟨v, rfl⟩
      | none =>
        simp only [MIR_OPTIONS, List.mem_cons, List.not_mem_nil, or_false] at hk
        rcases hk with rfl | rfl | rfl | rfl | rfl <;> exact ⟨_, rfl⟩
    have hkn : (opts.map Prod.fst).Nodup := by rw [hkeys]; decide
    have hna : "area" ∉ opts.map Prod.fst := by rw [hkeys]; decide
    have hng : "grid" ∉ opts.map Prod.fst := by rw [hkeys]; decide
    have hnone : ∀ (kw : List (String × V)) (g : Setting) (k : String), k ≠ "grid" → k ∉ kw.map Prod.fst →
        setTo (("grid", g) :: kw.map (fun p => (p.1, Setting.val p.2))) k = none := by
      intro kw g k hk hm
      unfold setTo
      rw [Option.map_eq_none_iff, List.find?_eq_none]
      intro q hq
      simp only [List.reverse_cons, List.mem_append, List.mem_reverse, List.mem_map, List.mem_cons, List.not_mem_nil, or_false] at hq
      rcases hq with ⟨w, hw, rfl⟩ | rfl
      · simp only [decide_eq_true_eq]; rintro rfl; exact hm (List.mem_map_of_mem hw)
      · simp only [decide_eq_true_eq]; exact fun he => hk he.symm
    have hgrid : ∀ (kw : List (String × V)) (g : Setting), "grid" ∉ kw.map Prod.fst →
        setTo (("grid", g) :: kw.map (fun p => (p.1, Setting.val p.2))) "grid" = some g := by
      intro kw g hm
      unfold setTo
      rw [List.reverse_cons, List.find?_append, List.find?_eq_none.2]
      · simp
      · intro q hq
        simp only [List.mem_reverse, List.mem_map] at hq
        obtain ⟨w, hw, rfl⟩ := hq
        simp only [decide_eq_true_eq]
        intro he
        exact hm (he ▸ List.mem_map_of_mem hw)
    cases ha : h.at_ grid "area" with
    | none =>
      rw [adjust_none P grid opts h ha] at hj
      simp only [Prod.mk.injEq, Except.ok.injEq] at hj
      obtain ⟨rfl, rfl⟩ := hj
      refine ⟨?_, ?_, fun a h => (by cases h), fun _ => hnone _ _ _ (by decide) hna⟩
      · intro k hk
        obtain ⟨v, hv⟩ := hdef k hk
        exact ⟨v, hv, setTo_vals _ _ hkn k v (by rw [hw k, hv])⟩
      · rw [hgrid _ _ hng]
        congr 2
        funext k
        unfold withoutArea
        by_cases hk : k = "area"
        · subst hk; simp [ha]
        · simp [hk]
    | some area =>
      obtain ⟨h2, hold, hnew, hcase⟩ := adjust_some P grid opts h area ha
      rcases hcase with ⟨t, ht, had⟩ | ⟨_, e, had⟩
      · rw [had] at hj
        simp only [Prod.mk.injEq, Except.ok.injEq] at hj
        obtain ⟨rfl, rfl⟩ := hj
        rw [assign_new _ _ _ hna]
        have hkn2 : ((opts ++ [("area", t)]).map Prod.fst).Nodup := by
          rw [List.map_append, hkeys]; show (MIR_DEFAULTS.map Prod.fst ++ ["area"]).Nodup; decide
        have hlk : ∀ k, k ≠ "area" → (opts ++ [("area", t)]).lookup k = opts.lookup k := by
          intro k hk
          rw [← assign_new _ _ _ hna, assign_lookup, if_neg hk]
        refine ⟨?_, ?_, ?_, fun h => (by cases h)⟩
        · intro k hk
          obtain ⟨v, hv⟩ := hdef k hk
          refine ⟨v, hv, setTo_vals _ _ hkn2 k v ?_⟩
          rw [hlk k (by rintro rfl; revert hk; decide), hw k, hv]
        · rw [hgrid _ _ (by rw [List.map_append, hkeys]; show "grid" ∉ MIR_DEFAULTS.map Prod.fst ++ ["area"]; decide), hnew]
          rfl
        · intro a hae
          cases hae
          refine ⟨t, ht, setTo_vals _ _ hkn2 "area" t ?_⟩
          rw [← assign_new _ _ _ hna, assign_lookup, if_pos rfl]
      · rw [had] at hj; cases hj

/-- The caller's dicts are as before, whether the call succeeds or not. -/
theorem C51_caller_unchanged (P : Py) (grid : Nat) (given : List (String × V)) (h : Heap) (r : Nat) (hr : r < h.next) :
    (jobGrib P grid given h).2.at_ r = h.at_ r ∧ (jobArray P grid given h).2.at_ r = h.at_ r := by
  unfold jobGrib jobArray
  cases hb : bindOptions given MIR_DEFAULTS with
  | error e => exact ⟨rfl, rfl⟩
  | ok opts =>
    simp only
    have key : ∀ kw : List (String × V), (adjustOptions P grid kw h).2.at_ r = h.at_ r := by
      intro kw
      cases ha : h.at_ grid "area" with
      | none => rw [adjust_none P grid kw h ha]
      | some area =>
        obtain ⟨h2, hold, _, hcase⟩ := adjust_some P grid kw h area ha
        rcases hcase with ⟨t, _, had⟩ | ⟨_, e, had⟩ <;> rw [had] <;> exact hold r hr
    constructor
    · have := key opts
      generalize adjustOptions P grid opts h = x at this
      obtain ⟨a, b⟩ := x
      cases a with
      | error e => exact this
      | ok p => exact this
    · have := key []
      generalize adjustOptions P grid [] h = x at this
      obtain ⟨a, b⟩ := x
      cases a with
      | error e => exact this
      | ok p => exact this

/-- An unknown option, or an area that is neither text nor four numbers, is refused; nothing else is. -/
theorem C51_refused_iff (P : Py) (grid : Nat) (given : List (String × V)) (h : Heap) :
    (∃ job, (jobGrib P grid given h).1 = .ok job) ↔
      (∀ p ∈ given, p.1 ∈ MIR_OPTIONS) ∧ ∀ area, h.at_ grid "area" = some area → ∃ t, AreaText P area t := by
  have hbind : ∀ (given opts : List (String × V)), opts.map Prod.fst = MIR_OPTIONS →
      ((∃ o, bindOptions given opts = .ok o) ↔ ∀ p ∈ given, p.1 ∈ MIR_OPTIONS) := by
    intro given
    induction given with
    | nil => intro opts _; simp [bindOptions]
    | cons p r ih =>
      intro opts ho
      obtain ⟨k, v⟩ := p
      unfold bindOptions
      by_cases hk : k ∈ MIR_OPTIONS
      · have hk' : (opts.map Prod.fst).contains k = true := by rw [ho]; simpa using hk
        rw [if_pos hk', ih _ (by rw [assign_keys _ _ _ (by rw [ho]; exact hk), ho])]
        simp [hk]
      · have hk' : ¬ (opts.map Prod.fst).contains k = true := by rw [ho]; simpa using hk
        rw [if_neg hk']
        simp [hk]
  unfold jobGrib
  rw [← hbind given MIR_DEFAULTS (by decide)]
  cases hb : bindOptions given MIR_DEFAULTS with
  | error e => simp
  | ok opts =>
    simp only
    cases ha : h.at_ grid "area" with
    | none => rw [adjust_none P grid opts h ha]; simp
    | some area =>
      obtain ⟨h2, _, _, hcase⟩ := adjust_some P grid opts h area ha
      rcases hcase with ⟨t, ht, had⟩ | ⟨hno, e, had⟩
      · rw [had]; simp; exact ⟨t, ht⟩
      · rw [had]; simp; simpa using hno

/-- Arrays: grid, area and interpolation are set on the job. -/
theorem C51_array_partial (P : Py) (grid : Nat) (given : List (String × V)) (h h' : Heap) (job : List (String × Setting))
    (hn : (given.map Prod.fst).Nodup) (hj : jobArray P grid given h = (.ok job, h')) :
    (∃ v, Wanted given "interpolation" = some v ∧ setTo job "interpolation" = some (.val v)) ∧
    setTo job "grid" = some (.grid (withoutArea (h.at_ grid))) ∧
    (∀ area, h.at_ grid "area" = some area → ∃ t, AreaText P area t ∧ setTo job "area" = some (.val t)) := by
  unfold jobArray at hj
  cases hb : bindOptions given MIR_DEFAULTS with
  | error e => rw [hb] at hj; cases hj
  | ok opts =>
    rw [hb] at hj
    simp only at hj
    obtain ⟨_, hlook⟩ := bind_lookup given MIR_DEFAULTS opts hb hn
    have hw : opts.lookup "interpolation" = Wanted given "interpolation" := by
      rw [hlook, defaults_documented]; unfold Wanted; cases given.lookup "interpolation" <;> rfl
    obtain ⟨v, hv⟩ : ∃ v, Wanted given "interpolation" = some v := by
      unfold Wanted
      cases given.lookup "interpolation" with
      | some v => exact ⟨v, rfl⟩
      | none => exact ⟨_, rfl⟩
    rw [hw, hv] at hj
    cases ha : h.at_ grid "area" with
    | none =>
      rw [adjust_none P grid [] h ha] at hj
      simp only [Prod.mk.injEq, Except.ok.injEq] at hj
      obtain ⟨rfl, rfl⟩ := hj
      refine ⟨⟨v, hv, by simp [setTo]⟩, ?_, fun a h => (by cases h)⟩
      simp only [setTo, List.map_nil]
      simp
      funext k
      unfold withoutArea
      by_cases hk : k = "area"
      · subst hk; simp [ha]
      · simp [hk]
    | some area =>
      obtain ⟨h2, hold, hnew, hcase⟩ := adjust_some P grid [] h area ha
      rcases hcase with ⟨t, ht, had⟩ | ⟨_, e, had⟩
      · rw [had] at hj
        simp only [Prod.mk.injEq, Except.ok.injEq] at hj
        obtain ⟨rfl, rfl⟩ := hj
        refine ⟨⟨v, hv, by simp [setTo, assign]⟩, ?_, ?_⟩
        · rw [hnew]; simp [setTo, assign]; rfl
        · intro a hae
          cases hae
          exact ⟨t, ht, by simp [setTo, assign]⟩
      · rw [had] at hj; cases hj

/-- The other options never reach the job of an array: `nearest_method` given by the user is not set, in any call. -/
theorem C51_refuted (P : Py) (grid : Nat) (given : List (String × V)) (h h' : Heap) (job : List (String × Setting))
    (hj : jobArray P grid given h = (.ok job, h')) (k : String) (hk : k ∈ ["nearest_method", "distance", "distance_tolerance", "nclosest"]) :
    setTo job k = none := by
  unfold jobArray at hj
  cases hb : bindOptions given MIR_DEFAULTS with
  | error e => rw [hb] at hj; cases hj
  | ok opts =>
    rw [hb] at hj
    simp only at hj
    have hne : k ≠ "grid" ∧ k ≠ "interpolation" ∧ k ≠ "area" := by
      simp only [List.mem_cons, List.not_mem_nil, or_false] at hk
      rcases hk with rfl | rfl | rfl | rfl <;> decide
    obtain ⟨k1, k2, k3⟩ := hne
    cases ha : h.at_ grid "area" with
    | none =>
      rw [adjust_none P grid [] h ha] at hj
      simp only [Prod.mk.injEq, Except.ok.injEq] at hj
      obtain ⟨rfl, rfl⟩ := hj
      simp [setTo, Ne.symm k1, Ne.symm k2]
    | some area =>
      obtain ⟨h2, hold, hnew, hcase⟩ := adjust_some P grid [] h area ha
      rcases hcase with ⟨t, ht, had⟩ | ⟨_, e, had⟩
      · rw [had] at hj
        simp only [Prod.mk.injEq, Except.ok.injEq] at hj
        obtain ⟨rfl, rfl⟩ := hj
        simp [setTo, assign, Ne.symm k1, Ne.symm k2, Ne.symm k3]
      · rw [had] at hj; cases hj

/-- A job for an array with an area and an option. -/
example (P : Py) : ∃ job h', jobArray P 0 [("nearest_method", .str "nearest-lsm".toList)]
    ⟨1, fun _ k => if k = "area" then some (.list [.int 60, .int 0, .int 30, .int 30]) else none⟩ = (.ok job, h') ∧
    setTo job "nearest_method" = none ∧ setTo job "area" ≠ none := by
  refine ⟨_, _, rfl, ?_, ?_⟩
  · simp [setTo, assign]
  · simp [setTo, assign]
example (P : Py) : ∃ job h', jobGrib P 0 [("nearest_method", .str "nearest-lsm".toList)]
    ⟨1, fun _ k => if k = "area" then some (.list [.int 60, .int 0, .int 30, .int 30]) else none⟩ = (.ok job, h') := ⟨_, _, rfl⟩

/-- A grid with an area, as the caller's dict. -/
def areaHeap : Heap := ⟨1, fun _ k => if k = "area" then some (.list [.int 60, .int 0, .int 30, .int 30]) else if k = "grid" then some (.str "O80".toList) else none⟩

/-- `C51_grib`: one option given, a grid with an area. -/
example (P : Py) : ∃ job h', jobGrib P 0 [("nclosest", .int 9)] areaHeap = (.ok job, h') ∧ setTo job "nclosest" = some (.val (.int 9)) ∧
    setTo job "interpolation" = some (.val (.str "linear".toList)) ∧ setTo job "grid" = some (.grid (withoutArea (areaHeap.at_ 0))) := by
  refine ⟨_, _, rfl, ?_⟩
  obtain ⟨h1, h2, -, -⟩ := C51_grib P 0 [("nclosest", .int 9)] areaHeap _ _ (by simp) rfl
  obtain ⟨v, hv, hv'⟩ := h1 "nclosest" (by decide)
  obtain ⟨u, hu, hu'⟩ := h1 "interpolation" (by decide)
  cases hv
  cases hu
  exact ⟨hv', hu', h2⟩

/-- `C51_array_partial` on the same. -/
example (P : Py) : ∃ job h', jobArray P 0 [("interpolation", .str "nn".toList)] areaHeap = (.ok job, h') ∧
    setTo job "interpolation" = some (.val (.str "nn".toList)) ∧ ∃ t, setTo job "area" = some (.val t) := by
  refine ⟨_, _, rfl, ?_⟩
  obtain ⟨⟨v, hv, hv'⟩, -, h3⟩ := C51_array_partial P 0 [("interpolation", .str "nn".toList)] areaHeap _ _ (by simp) rfl
  obtain ⟨t, -, ht⟩ := h3 (.list [.int 60, .int 0, .int 30, .int 30]) rfl
  cases hv
  exact ⟨hv', t, ht⟩

/-- `C51_caller_unchanged`: the dict of the caller keeps its area. -/
example (P : Py) : (jobGrib P 0 [] areaHeap).2.at_ 0 "area" = some (.list [.int 60, .int 0, .int 30, .int 30]) := by
  rw [(C51_caller_unchanged P 0 [] areaHeap 0 (by decide)).1]
  rfl

/-- `C51_refused_iff`: a misspelt option. -/
example (P : Py) : ¬∃ job, (jobGrib P 0 [("nclosets", .int 9)] areaHeap).1 = .ok job := by
  rw [C51_refused_iff]
  exact fun h => absurd (h.1 _ (List.mem_singleton.2 rfl)) (by decide)

end Verif.Regrid
