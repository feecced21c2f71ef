import Verif.DiskCache.TableProps

/-! # C63: which empty entries purge() leaves

The bytes to free are those of all entries together: the loop stops as soon as the last entry with bytes is gone. -/

namespace Verif.DiskCache

/-- C63 (order): an entry left by `purge()` comes late: everything with bytes went with an entry that was not asked for after it, or with an orphan.
If, after the housekeeping, no entry has bytes, nothing at all is removed. -/
theorem C63_late (e : Env) (hd : Deletable e) (t t' : Nat) (ht : t < t') (s : St) (hs : Inside e s) (hc : ∀ r ∈ s.rows, r.created < t') :
    ∃ s', purge e t t' s = (.ok (), s') ∧
      ((∀ r ∈ (housekeeping e t true s).rows, r.size = some 0) → s' = housekeeping e t true s) ∧
      ∀ r ∈ s'.rows, ∀ a ∈ (housekeeping e t true s).rows, a.size ≠ some 0 →
        ∃ v ∈ (housekeeping e t true s).rows, v ∉ s'.rows ∧ Under (housekeeping e t true s).rows v.path a.path ∧
          (v.owner = orphans ∨ (r.owner ≠ orphans ∧ v.access ≤ r.access)) := by
  obtain ⟨s', hp, hleft⟩ := C63_left e hd t t' ht s hs hc
  refine ⟨s', hp, ?_, ?_⟩
  · intro h
    unfold purge at hp
    have : (housekeeping e t true s).size = 0 := by
      unfold St.size
      generalize (housekeeping e t true s).rows = rs at h
      induction rs with
      | nil => rfl
      | cons r rs ih =>
        rw [List.map_cons, List.sum_cons, ih (fun x hx => h x (List.mem_cons_of_mem _ hx)), h r List.mem_cons_self]
        rfl
    rw [this] at hp
    unfold decache at hp
    rw [if_pos (by omega)] at hp
    exact (Prod.mk.inj hp).2.symm
  · intro r hr a ha hz
    have han : a ∉ s'.rows := fun h => hz (hleft a h).1
    have k := housekeeping_kept e t true s
    unfold purge at hp
    generalize housekeeping e t true s = s1 at *
    have hsome : ∀ r ∈ s1.rows, r.size ≠ none := fun r hr hn => by have := (k.sized r hr hn).1; cases this
    unfold decache at hp
    by_cases hg : 100 * s1.size = 0
    · rw [if_pos hg] at hp
      cases hp
      exact absurd ha han
    · rw [if_neg hg, if_pos rfl] at hp
      obtain ⟨tot, s2, h1, _, _, _, h2⟩ := sweep_spec e hd (100 * s1.size) t' s1 (k.inside hs)
      have l := loss_sweep e (100 * s1.size) t' s1
      rw [h1] at l hp
      cases hp
      have hel : Finished r ∧ r.created < t' := by
        refine ⟨?_, ?_⟩
        · unfold Finished
          cases hz : r.size with
          | some n => rfl
          | none => exact absurd hz (hsome r (l.rows.subset hr))
        · rcases k.back r (l.rows.subset hr) with ⟨r0, hr0, hsame⟩ | ⟨_, hcr, _⟩
          · rw [hsame.created]
            exact hc r0 hr0
          · omega
      obtain ⟨v, x1, _, x3, x4, x5⟩ := h2 a ha han r hr hel
      exact ⟨v, x1, x3, x4, x5⟩

/-- An entry with bytes and an empty one that was asked for later, or earlier. -/
def mixed (n : Nat) : St := ⟨[row "/c/b" "url" 2 2 (some 5), row "/c/a" "url" 1 n (some 0)], [("/c/a".toList, ⟨0, 1⟩), ("/c/b".toList, ⟨5, 1⟩)]⟩

/-- The empty entry is left if it was asked for later, and removed if earlier. -/
example : (∃ r ∈ (purge envC 1000 1001 (mixed 3)).2.rows, r.path = "/c/a".toList) ∧ (purge envC 1000 1001 (mixed 1)).2.rows = [] := by
  decide +kernel

/-- What was removed with the other entry was not asked for after the one that is left. -/
example (r : Row) (hr : r ∈ (purge envC 1000 1001 (mixed 3)).2.rows) :
    ∃ v ∈ (housekeeping envC 1000 true (mixed 3)).rows, v ∉ (purge envC 1000 1001 (mixed 3)).2.rows ∧
      (v.owner = orphans ∨ (r.owner ≠ orphans ∧ v.access ≤ r.access)) := by
  obtain ⟨s', h1, _, h2⟩ := C63_late envC (fun _ => rfl) 1000 1001 (by omega) (mixed 3)
    (by have : ∀ r ∈ (mixed 3).rows, inCache envC r.path = true := by decide +kernel
        exact this) (by decide +kernel)
  rw [h1] at hr ⊢
  obtain ⟨v, hv, hn, _, h⟩ := h2 r hr (row "/c/b" "url" 2 2 (some 5)) (by decide +kernel) (by decide)
  exact ⟨v, hv, hn, h⟩

/-- Nothing is removed where all entries are empty. -/
example : (purge envC 1000 1001 hollow).2 = housekeeping envC 1000 true hollow := by
  obtain ⟨s', h1, h2, _⟩ := C63_late envC (fun _ => rfl) 1000 1001 (by omega) hollow
    (by have : ∀ r ∈ hollow.rows, inCache envC r.path = true := by decide +kernel
        exact this) (by decide +kernel)
  rw [h1]
  exact h2 (by decide +kernel)

end Verif.DiskCache
