import Verif.DiskCache.TableProps

/-!
# Purging by owner: the documented call — caching.py:886-914 (C134)
-/

namespace Verif.DiskCache

/-- Values of the two matchers: texts and lists. -/
inductive DocVal where
  | str (s : List Char)
  | list (l : List DocVal)

/-- `==` of python: a list is never equal to a text. -/
def DocVal.eq : DocVal → DocVal → Bool
  | .str a, .str b => a == b
  | _, .str _ => false
  | .str _, _ => false
  | .list a, .list b => go a b
where
  go : List DocVal → List DocVal → Bool
    | [], [] => true
    | x :: xs, y :: ys => x.eq y && go xs ys
    | _, _ => false

/-- The matcher of the example, `lambda e: ["owner"] == "test_cache"` — caching.py:911 -/
def docMatcher (_e : Row) : Bool := (DocVal.list [.str "owner".toList]).eq (.str "test_cache".toList)

/-- The matcher the text above the example describes (caching.py:908): `lambda e: e["owner"] == owner` -/
def byOwner (owner : List Char) (e : Row) : Bool := (DocVal.str e.owner).eq (.str owner)

/-- **C134.** Purging with a matcher that compares the owner: no record of that owner is left, records of other owners are there as before
unless they are attached to one of that owner, and no file of a record of that owner is left. -/
theorem C134_owner (e : Env) (hd : Deletable e) (owner : List Char) (s : St) (hu : Unique s) (hs : Inside e s) (hr : Rooted s) :
    ∃ s', purgeMatch e (byOwner owner) s = (.ok (), s') ∧ (∀ r ∈ s'.rows, r.owner ≠ owner) ∧
      (∀ r ∈ s.rows, (∀ m ∈ s.rows, m.owner = owner → ¬Under s.rows m.path r.path) → r ∈ s'.rows) ∧
      ∀ r ∈ s.rows, r.owner = owner → ∀ f ∈ s'.files, f.1 ≠ r.path := by
  obtain ⟨s', h1, h2, h3⟩ := C63_matcher e hd (byOwner owner) s hu hs hr
  have key : ∀ r : Row, byOwner owner r = true ↔ r.owner = owner := by
    intro r
    show (r.owner == owner) = true ↔ _
    simp
  refine ⟨s', h1, fun r hr' ho => ((h2 r).1 hr').2 ⟨r, ((h2 r).1 hr').1, (key r).2 ho, .self⟩,
    fun r hr' hn => (h2 r).2 ⟨hr', fun ⟨m, hm, hk, hun⟩ => hn m hm ((key m).1 hk) hun⟩,
    fun r hr' ho f hf he => ((h3 f).1 hf).2 ⟨r, hr', (key r).2 ho, he ▸ .self⟩⟩

/-- **C134 refuted for the documented call**: it deletes nothing, whatever the cache holds. -/
theorem C134_refuted (e : Env) (s : St) : purgeMatch e docMatcher s = (.ok (), s) := by
  have h : s.rows.filter docMatcher = [] := by
    rw [List.filter_eq_nil_iff]
    intro r _
    show ¬ false = true
    exact Bool.false_ne_true
  unfold purgeMatch
  rw [h]
  rfl

/-! ## Non-vacuity -/

/-- An entry of the tests with an attached file, and one of a download. -/
def ofTests : St := ⟨[row "/c/a" "test_cache" 1 1 (some 10), ⟨"/c/a.x".toList, orphans, 2, 2, some 1, some "/c/a".toList, 1, none⟩,
    row "/c/b" "url" 1 1 (some 10)], [("/c/a".toList, ⟨10, 1⟩), ("/c/a.x".toList, ⟨1, 1⟩), ("/c/b".toList, ⟨10, 1⟩)]⟩

/-- `C134_owner`, and what `C134_refuted` says of the same cache: the entry of the owner is still there. -/
example : (∃ s', purgeMatch envC (byOwner "test_cache".toList) ofTests = (.ok (), s') ∧ (∀ r ∈ s'.rows, r.owner ≠ "test_cache".toList)) ∧
    (purgeMatch envC (byOwner "test_cache".toList) ofTests).2.rows.map (·.path) = ["/c/b".toList] ∧
    ∃ r ∈ (purgeMatch envC docMatcher ofTests).2.rows, r.owner = "test_cache".toList := by
  refine ⟨?_, by decide +kernel, by decide +kernel⟩
  obtain ⟨s', h1, h2, _⟩ := C134_owner envC (fun _ => rfl) "test_cache".toList ofTests (by unfold Unique; decide +kernel)
    (by unfold Inside; decide +kernel) (by
      have : ∀ r ∈ ofTests.rows, (r.parent.all (fun p => decide (p.length < r.path.length))) = true := by decide +kernel
      intro r hr p hp
      have := this r hr
      rw [hp] at this
      simpa using this)
  exact ⟨s', h1, h2⟩

end Verif.DiskCache
