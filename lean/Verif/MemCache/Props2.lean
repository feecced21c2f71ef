import Verif.MemCache.Props

/-!
# C08 and C14: what exactly happens

For weights that cannot fit, the matrices that stay are determined for both limited policies. For several inventories, the weights a
lookup returns are those of its own inventory unless the same request was made to another one since the cache was last cleared.
-/

namespace Verif.MemCache

variable {Q K W S : Type} [LinearOrder K]

/-! ### C08 -/

/-- Under `lru` weights that reach the limit are returned and nothing at all is held afterwards, whatever was held and whatever the
estimate. -/
theorem C08_lru_flushed (key : Q → K) (sizeFn : W → Nat) (ops : List (Op Q W S)) (hv : OpsValid ops)
    (src : Source Q W S) (q : Q) (w : W) (sh : Option S) (m : Int)
    (hp : (run key sizeFn (initial : Cache K W S) ops).policy = .lru)
    (hst : (run key sizeFn (initial : Cache K W S) ops).strict = false)
    (hm : ¬ Holds (run key sizeFn (initial : Cache K W S) ops) (key q))
    (hmax : (run key sizeFn (initial : Cache K W S) ops).maxMem = some m)
    (hc : src.create q = .ok (some w, sh)) (hsz : m ≤ sizeFn w) :
    (get key sizeFn src q (run key sizeFn (initial : Cache K W S) ops)).1.res = .ok (some w, sh) ∧
    (get key sizeFn src q (run key sizeFn (initial : Cache K W S) ops)).2.items = [] := by
  have hacc := run_acc (S := S) key sizeFn ops
  have hb := C01_currsize_below_limit (S := S) key sizeFn ops hv (Or.inl hp)
  generalize run key sizeFn (initial : Cache K W S) ops = s at *
  obtain ⟨m', h1, h2, _⟩ := hb
  simp only [info] at h1
  rw [hmax] at h1; cases h1
  have h := get_cases key sizeFn src q s hacc
  generalize (get key sizeFn src q s).1 = o at h
  generalize (get key sizeFn src q s).2 = s' at h
  cases h with
  | off h => rw [hp] at h; cases h
  | hit _ l1 it l2 hi hk => exact absurd ⟨it, by rw [hi]; simp, hk⟩ hm
  | unlErr h => rw [hp] at h; cases h
  | unlNone h => rw [hp] at h; cases h
  | unlSome h => rw [hp] at h; cases h
  | limErr _ _ ev kept ho hn e' c hcase =>
    rcases hcase with h | ⟨_, en, _, h | h⟩
    · rw [hc] at h; cases h.1
    · rw [hst] at h; cases h.2.1
    · exact absurd ⟨m, hmax, h2⟩ h.1
  | limNone _ _ _ _ _ _ _ h => rw [hc] at h; simp at h
  | limSome _ _ ev kept ho hn w' sh' hc' m' hmm hpos ev2 kept2 ho2 he2 =>
    rw [hc] at hc'
    simp at hc'
    obtain ⟨rfl, rfl⟩ := hc'
    rw [hmax] at hmm; cases hmm
    refine ⟨rfl, ?_⟩
    show kept2 = []
    rcases he2.done with h | h
    · exact h
    · rcases List.eq_nil_or_concat kept2 with h0 | ⟨l, a, h0⟩
      · exact h0
      · exfalso
        have he := ho2.lru hp
        rw [h0, List.concat_eq_append, ← List.append_assoc] at he
        have := (List.append_inj' he rfl).2
        simp at this
        subst this
        rw [h0, List.concat_eq_append] at h
        have := total_nonneg l
        simp at h
        omega
  | limBad _ _ _ _ _ hbad => exact absurd ⟨m, hmax, h2⟩ hbad

/-- Under `largest` weights that reach the limit are returned, and the held matrices stay in place exactly if there are none, or the
estimate is above the limit, or the estimate leaves enough room. -/
theorem C08_largest_exact (key : Q → K) (sizeFn : W → Nat) (ops : List (Op Q W S)) (hv : OpsValid ops)
    (src : Source Q W S) (q : Q) (e : Entry) (w : W) (sh : Option S) (m : Int)
    (hp : (run key sizeFn (initial : Cache K W S) ops).policy = .largest)
    (hst : (run key sizeFn (initial : Cache K W S) ops).strict = false)
    (hm : ¬ Holds (run key sizeFn (initial : Cache K W S) ops) (key q))
    (hmax : (run key sizeFn (initial : Cache K W S) ops).maxMem = some m)
    (hf : src.findEntry q = .ok (some e)) (hc : src.create q = .ok (some w, sh)) (hsz : m ≤ sizeFn w) :
    (get key sizeFn src q (run key sizeFn (initial : Cache K W S) ops)).1.res = .ok (some w, sh) ∧
    ((get key sizeFn src q (run key sizeFn (initial : Cache K W S) ops)).2.items = (run key sizeFn (initial : Cache K W S) ops).items ↔
      (run key sizeFn (initial : Cache K W S) ops).items = [] ∨ m < estimate e ∨
        estimate e + total (run key sizeFn (initial : Cache K W S) ops).items ≤ m) := by
  by_cases hest : m < estimate e ∨ estimate e + total (run key sizeFn (initial : Cache K W S) ops).items ≤ m
  · have := C08_oversized_leaves_cache_partial key sizeFn ops hv src q e w sh m hp hst hm hmax hf hc hest hsz
    exact ⟨this.1, fun _ => Or.inr hest, fun _ => this.2⟩
  have hacc := run_acc (S := S) key sizeFn ops
  have hb := C01_currsize_below_limit (S := S) key sizeFn ops hv (Or.inr hp)
  generalize run key sizeFn (initial : Cache K W S) ops = s at *
  obtain ⟨m', h1, hpos, _⟩ := hb
  simp only [info] at h1
  rw [hmax] at h1; cases h1
  push Not at hest
  obtain ⟨ev, kept, g1, g2, g3, g4⟩ := reduce_limited s m (some (m - estimate e)) (Or.inr hp) hmax hpos hacc.1
  have hfind := (find_none_iff s (key q)).2 hm
  have hcond : m - s.currMem < estimate e ∧ estimate e ≤ m := by rw [hacc.2]; omega
  have hload : src.createFromEntry (some e) = .ok (some w, sh) := by simpa [Source.create, hf] using hc
  have hnd : ((kept ++ [(⟨key q, (some w, sh), sizeFn w⟩ : Item K W S)]).map (·.key)).Nodup :=
    nodup_snoc (nodup_sub g2.sub hacc.1) _ (fun x hx h => hm ⟨x, g2.sub.subset hx, h⟩)
  obtain ⟨ev2, kept2, r1, r2, _, _⟩ := reduce_limited
    ({ s with
      misses := s.misses + 1
      items := kept ++ [⟨key q, (some w, sh), sizeFn w⟩]
      currMem := total kept + (sizeFn w : Int) } : Cache K W S) m none (Or.inr hp) hmax hpos hnd
  have hg : get key sizeFn src q s = (⟨.ok (some w, sh), [.find q, .load (some e)]⟩,
      { s with misses := s.misses + 1, items := kept2, currMem := total kept2 }) := by
    simp only [get, hp, Policy.hasCache, Policy.hasLimit, if_true, hfind, createWithPreCheck, hf, hmax, if_pos hcond, g1, hst,
      Bool.false_eq_true, false_and, if_false, hload]
    simp only [hp, hst, hmax] at r1
    rw [r1]
  rw [hg]
  refine ⟨rfl, ?_⟩
  show kept2 = s.items ↔ _
  have hnew : (⟨key q, (some w, sh), sizeFn w⟩ : Item K W S) ∉ kept2 := by
    intro hin
    rcases r2.done with h | h
    · rw [h] at hin; cases hin
    · obtain ⟨l1, l2, rfl⟩ := List.append_of_mem hin
      have := total_nonneg l1
      have := total_nonneg l2
      simp at h; omega
  have hsub : kept2.Sublist kept := by
    obtain ⟨a1, a2, rfl, ha1, ha2⟩ := List.sublist_append_iff.1 r2.sub
    have : a2 = [] := by
      cases a2 with
      | nil => rfl
      | cons z zs =>
        have hz := ha2.subset (List.mem_cons_self)
        simp at hz
        exact absurd (by rw [← hz]; simp) hnew
    subst this
    simpa using ha1
  constructor
  · intro h
    left
    rw [h] at hsub
    have hk : kept = s.items := (g2.sub.antisymm hsub)
    rcases g2.done with h0 | h0
    · rw [← hk]; exact h0
    · exfalso
      rw [hk] at h0
      simp at h0
      omega
  · rintro (h | h | h)
    · rw [h] at g2 ⊢
      have := g2.sub.length_le
      have hk : kept = [] := by simpa using this
      rw [hk] at hsub
      simpa using hsub
    · omega
    · omega

/-- A held 4 and a held 5 with limit 10: weights of 11 with the estimate 3 need room, which is made by giving up the 5; with the
estimate 1 or 12 nothing is given up. -/
def badly (e : Int) : Source Nat Nat Unit where
  findEntry _ := .ok (some ⟨some e, 0⟩)
  createFromEntry _ := .ok (some 11, some ())

example : (get id id (badly 3) 11 (Demo.after [Demo.largest 10, Demo.g 5, Demo.g 4])).2.items.map (·.key) = [4] ∧
    (get id id (badly 1) 11 (Demo.after [Demo.largest 10, Demo.g 5, Demo.g 4])).2.items.map (·.key) = [5, 4] ∧
    (get id id (badly 12) 11 (Demo.after [Demo.largest 10, Demo.g 5, Demo.g 4])).2.items.map (·.key) = [5, 4] ∧
    (get id id (badly 3) 11 (Demo.after [Demo.lru 10, Demo.g 5, Demo.g 4])).2.items.map (·.key) = [] := by decide +kernel

theorem largest_valid : OpsValid [Demo.largest 10, Demo.g 5, Demo.g 4] := by
  intro cfg hc
  simp [Demo.largest, Demo.g] at hc
  subst hc
  exact ⟨some 10, .largest, rfl, rfl, fun _ => ⟨10, rfl, by decide⟩⟩

/-- `C08_largest_exact`: an estimate of 3 for weights of 11 costs what is held, one of 12 does not. -/
example : (get id id (badly 3) 11 (Demo.after [Demo.largest 10, Demo.g 5, Demo.g 4])).2.items ≠ (Demo.after [Demo.largest 10, Demo.g 5, Demo.g 4]).items ∧
    (get id id (badly 12) 11 (Demo.after [Demo.largest 10, Demo.g 5, Demo.g 4])).2.items = (Demo.after [Demo.largest 10, Demo.g 5, Demo.g 4]).items := by
  have h : ∀ e, _ := fun e => C08_largest_exact id id [Demo.largest 10, Demo.g 5, Demo.g 4] largest_valid (badly e) 11 ⟨some e, 0⟩ 11 (some ()) 10
    (by decide +kernel) (by decide +kernel) (by rw [← find_none_iff]; decide +kernel) (by decide +kernel) rfl rfl (by decide)
  exact ⟨fun hc => absurd ((h 3).2.1 hc) (by decide +kernel), (h 12).2.2 (.inr (.inl (by decide)))⟩

/-- `C08_lru_flushed` -/
example : (get id id (badly 3) 11 (Demo.after [Demo.lru 10, Demo.g 5, Demo.g 4])).2.items = [] :=
  (C08_lru_flushed id id [Demo.lru 10, Demo.g 5, Demo.g 4] (by
    intro cfg hc
    simp [Demo.lru, Demo.g] at hc
    subst hc
    exact ⟨some 10, .lru, rfl, rfl, fun _ => ⟨10, rfl, by decide⟩⟩) (badly 3) 11 11 (some ()) 10
    (by decide +kernel) (by decide +kernel) (by rw [← find_none_iff]; decide +kernel) (by decide +kernel) rfl (by decide)).2

/-! ### C14 -/

/-- `recent` is what happened since the cache was last cleared (or since the start). -/
def Since (ops recent : List (Op Q W S)) : Prop := ops = recent ∨ ∃ before, ops = before ++ .clear :: recent

/-- Another lookup, since the cache was last cleared, of a request with the same key. -/
def Asked (key : Q → K) (recent : List (Op Q W S)) (q : Q) (src' : Source Q W S) (q' : Q) : Prop :=
  Op.get src' q' ∈ recent ∧ key q' = key q

/-- Invariant: what is held was loaded by one of the lookups made since the cache was empty. -/
theorem items_loaded (key : Q → K) (sizeFn : W → Nat) (s0 : Cache K W S) (h0 : s0.items = []) (hacc0 : Acc s0) (ops : List (Op Q W S)) :
    ∀ it ∈ (run key sizeFn s0 ops).items, ∃ src q, Op.get src q ∈ ops ∧ key q = it.key ∧ src.create q = .ok it.data := by
  have hall : ∀ ops, Acc (run key sizeFn s0 ops) := fun ops =>
    run_ind key sizeFn s0 (fun _ s => Acc s) hacc0 (fun _ op ih => step_acc key sizeFn _ op ih) ops
  apply run_ind key sizeFn s0
    (fun ops s => ∀ it ∈ s.items, ∃ src q, Op.get src q ∈ ops ∧ key q = it.key ∧ src.create q = .ok it.data)
  · simp [h0]
  · intro ops op ih
    have ih : ∀ it ∈ (run key sizeFn s0 ops).items,
        ∃ src q, Op.get src q ∈ ops ++ [op] ∧ key q = it.key ∧ src.create q = .ok it.data := by
      intro it hit
      obtain ⟨src, q, h, h'⟩ := ih it hit
      exact ⟨src, q, by simp [h], h'⟩
    have hacc := hall ops
    generalize run key sizeFn s0 ops = s at *
    cases op with
    | get src' q =>
      have h := get_cases key sizeFn src' q s hacc
      simp only [step]
      generalize (get key sizeFn src' q s).1 = o at h
      generalize (get key sizeFn src' q s).2 = s' at h
      cases h with
      | off => exact ih
      | hit _ l1 it l2 hi =>
        intro x hx
        apply ih; rw [hi]; simp at hx ⊢; grind
      | unlErr => exact ih
      | unlNone => exact ih
      | unlSome _ _ w sh hc =>
        intro x hx
        simp at hx
        rcases hx with hx | rfl
        · exact ih x hx
        · exact ⟨src', q, by simp, rfl, hc⟩
      | limErr _ _ ev kept ho => exact fun x hx => ih x (ho.sub.subset hx)
      | limNone _ _ ev kept ho => exact fun x hx => ih x (ho.sub.subset hx)
      | limSome _ _ ev kept ho _ w sh hc _ _ _ ev2 kept2 ho2 =>
        intro x hx
        have := ho2.sub.subset hx
        simp at this
        rcases this with hx | rfl
        · exact ih x (ho.sub.subset hx)
        · exact ⟨src', q, by simp, rfl, hc⟩
      | limBad _ _ w sh hc =>
        intro x hx
        simp at hx
        rcases hx with hx | rfl
        · exact ih x hx
        · exact ⟨src', q, by simp, rfl, hc⟩
    | update cfg =>
      have h := update_cases cfg s hacc
      simp only [step]
      generalize update cfg s = r at h
      cases h with
      | same e s' hi => simp only; rw [hi]; exact ih
      | off s' _ hi => simp [hi]
      | evict s' _ _ _ _ ev kept _ ho hi =>
        simp only; rw [hi]; exact fun x hx => ih x (ho.sub.subset hx)
    | clear => simp [step, clear]

theorem items_recent (key : Q → K) (sizeFn : W → Nat) (ops recent : List (Op Q W S)) (hr : Since ops recent) :
    ∀ it ∈ (run key sizeFn (initial : Cache K W S) ops).items,
      ∃ src q, Op.get src q ∈ recent ∧ key q = it.key ∧ src.create q = .ok it.data := by
  rcases hr with rfl | ⟨before, rfl⟩
  · exact items_loaded key sizeFn initial rfl initial_acc ops
  · have : run key sizeFn (initial : Cache K W S) (before ++ .clear :: recent) =
        run key sizeFn (clear (run key sizeFn (initial : Cache K W S) before)) recent := by
      rw [run_append]; rfl
    rw [this]
    exact items_loaded key sizeFn _ rfl (Acc.clear _) recent

/-- Whose weights a lookup returns: those of its own inventory, or those of an inventory asked for the same request since the cache
was last cleared. -/
theorem C14_whose (key : Q → K) (sizeFn : W → Nat) (ops recent : List (Op Q W S)) (hr : Since ops recent) (src : Source Q W S) (q : Q)
    (d : Option W × Option S) (hok : (get key sizeFn src q (run key sizeFn (initial : Cache K W S) ops)).1.res = .ok d) :
    src.create q = .ok d ∨ ∃ src' q', Asked key recent q src' q' ∧ src'.create q' = .ok d := by
  have hi := items_recent key sizeFn ops recent hr
  have hacc := run_acc (S := S) key sizeFn ops
  generalize run key sizeFn (initial : Cache K W S) ops = s at *
  have h := get_cases key sizeFn src q s hacc
  generalize (get key sizeFn src q s).1 = o at h hok
  generalize (get key sizeFn src q s).2 = s' at h
  cases h with
  | hit _ l1 it l2 hit hkey =>
    obtain ⟨src', q', h0, h1, h2⟩ := hi it (by rw [hit]; simp)
    cases hok
    exact Or.inr ⟨src', q', ⟨h0, h1.trans hkey⟩, h2⟩
  | _ => first | (cases hok; done) | (left; simp_all; done)

/-- C14 (partial): a lookup gives exactly what its inventory gives if no inventory with a different answer was asked for the same
request since the cache was last cleared; in particular after `clear_memory_cache()`, and for requests nobody made before.
Missing: inventories that differ on a request made to both, refuted above. -/
theorem C14_isolated_partial (key : Q → K) (sizeFn : W → Nat) (ops recent : List (Op Q W S)) (hr : Since ops recent) (hv : OpsValid ops)
    (src : Source Q W S) (q : Q) (hst : (run key sizeFn (initial : Cache K W S) ops).strict = false)
    (hag : ∀ src' q', Asked key recent q src' q' → src'.create q' = src.create q) :
    (get key sizeFn src q (run key sizeFn (initial : Cache K W S) ops)).1.res = src.create q := by
  have hc01 := C01_currsize_below_limit (S := S) key sizeFn ops hv
  have h03 : ∀ d, (get key sizeFn src q (run key sizeFn (initial : Cache K W S) ops)).1.res = .ok d → src.create q = .ok d := by
    intro d hd
    rcases C14_whose key sizeFn ops recent hr src q d hd with h | ⟨src', q', h, h'⟩
    · exact h
    · rw [← hag src' q' h]; exact h'
  have hacc := run_acc (S := S) key sizeFn ops
  generalize run key sizeFn (initial : Cache K W S) ops = s at *
  have h := get_cases key sizeFn src q s hacc
  generalize (get key sizeFn src q s).1 = o at h h03
  generalize (get key sizeFn src q s).2 = s' at h
  cases h with
  | hit => exact (h03 _ rfl).symm
  | off => rfl
  | unlErr _ _ e hc => exact hc.symm
  | unlNone _ _ e hc => exact hc.symm
  | unlSome _ _ w e hc => exact hc.symm
  | limErr hl _ ev kept ho _ e c hc =>
    rcases hc with hc | ⟨_, en, _, hc | hc⟩
    · exact hc.1.symm
    · rw [hst] at hc; cases hc.2.1
    · obtain ⟨m, h1, h2, _⟩ := hc01 hl
      exact absurd ⟨m, h1, h2⟩ hc.1
  | limNone _ _ _ _ _ _ _ hc => exact hc.symm
  | limSome _ _ _ _ _ _ _ _ hc => exact hc.symm
  | limBad hl _ _ _ _ hbad =>
    obtain ⟨m, h1, h2, _⟩ := hc01 hl
    exact absurd ⟨m, h1, h2⟩ hbad

/-- The foreign weights of `C14_refuted`, and the way round them: after a clear the second inventory gets its own. -/
example : (get id id Demo.other 4 (Demo.after [Demo.largest 10, Demo.g 4])).1.calls = [] ∧
    (get id id Demo.other 4 (Demo.after ([Demo.largest 10, Demo.g 4] ++ .clear :: []))).1.calls ≠ [] := by decide +kernel

example : Since ([Demo.largest 10, Demo.g 4] ++ .clear :: []) [] := Or.inr ⟨_, rfl⟩

/-- `C14_whose`: the other inventory is given 4 where it has 5; the lookup in the first one was the reason. -/
example : Demo.other.create 4 = .ok (some 4, some ()) ∨
    ∃ src' q', Asked id [Demo.largest 10, Demo.g 4] 4 src' q' ∧ src'.create q' = .ok (some 4, some ()) :=
  C14_whose id id [Demo.largest 10, Demo.g 4] _ (.inl rfl) Demo.other 4 _ (by decide +kernel)

end Verif.MemCache
