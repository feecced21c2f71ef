import Verif.MemCache.Memory
import Verif.MemCache.Props

/-!
# Memory taken by weights (C123)

Specification: `Weights.bytes` (all arrays of a matrix), `heldBytes` (of all matrices in the cache, read off the matrices and not off the
sizes the cache keeps).
-/

namespace Verif.MemCache
variable {Q K S : Type} [LinearOrder K]

/-- Bytes of a matrix. -/
def Weights.bytes (w : Weights) : Nat := w.data + w.first + w.second

/-- The format is one whose arrays are counted. -/
def Weights.Counted (w : Weights) : Prop := w.format = .csr ∨ w.format = .csc ∨ w.format = .bsr

/-- Bytes of all matrices held. -/
def heldBytes (s : Cache K Weights S) : Int := (s.items.map (fun it => ((it.data.1.map Weights.bytes).getD 0 : Int))).sum

/-- All weights loaded in a history have such a format. -/
def OpsCounted (ops : List (Op Q Weights S)) : Prop :=
  ∀ src q w sh, Op.get src q ∈ ops → src.create q = .ok (some w, sh) → w.Counted

theorem counted_size (w : Weights) (h : w.Counted) : matrixMemorySize w = w.bytes := by
  unfold matrixMemorySize Weights.bytes
  rcases h with h | h | h <;> rw [h]

theorem items_from_some_source {W : Type} (key : Q → K) (sizeFn : W → Nat) (ops : List (Op Q W S)) :
    ∀ it ∈ (run key sizeFn (initial : Cache K W S) ops).items, ∃ src q, Op.get src q ∈ ops ∧ src.create q = .ok it.data := by
  apply run_ind key sizeFn initial (fun ops s => ∀ it ∈ s.items, ∃ src q, Op.get src q ∈ ops ∧ src.create q = .ok it.data)
  · simp [initial]
  · intro ops op ih
    have ih : ∀ it ∈ (run key sizeFn (initial : Cache K W S) ops).items, ∃ src q, Op.get src q ∈ ops ++ [op] ∧ src.create q = .ok it.data := by
      intro it hit
      obtain ⟨src, q, h, h'⟩ := ih it hit
      exact ⟨src, q, by simp [h], h'⟩
    have hacc := run_acc (S := S) key sizeFn ops
    generalize run key sizeFn (initial : Cache K W S) ops = s at *
    cases op with
    | get src q =>
      have h := get_cases key sizeFn src q s hacc
      simp only [step]
      generalize (get key sizeFn src q s).1 = o at h
      generalize (get key sizeFn src q s).2 = s' at h
      cases h with
      | off => exact ih
      | hit _ l1 it l2 hi =>
        intro x hx
        apply ih; rw [hi]; simp at hx ⊢; grind
      | unlErr => exact ih
      | unlNone => exact ih
      | unlSome _ _ w sh hc =>
        intro x hx
        simp at hx
        rcases hx with hx | rfl
        · exact ih x hx
        · exact ⟨src, q, by simp, hc⟩
      | limErr _ _ ev kept ho => exact fun x hx => ih x (ho.sub.subset hx)
      | limNone _ _ ev kept ho => exact fun x hx => ih x (ho.sub.subset hx)
      | limSome _ _ ev kept ho _ w sh hc _ _ _ ev2 kept2 ho2 =>
        intro x hx
        have := ho2.sub.subset hx
        simp at this
        rcases this with hx | rfl
        · exact ih x (ho.sub.subset hx)
        · exact ⟨src, q, by simp, hc⟩
      | limBad _ _ w sh hc =>
        intro x hx
        simp at hx
        rcases hx with hx | rfl
        · exact ih x hx
        · exact ⟨src, q, by simp, hc⟩
    | update cfg =>
      have h := update_cases cfg s hacc
      simp only [step]
      generalize update cfg s = r at h
      cases h with
      | same e s' hi => intro x hx; rw [hi] at hx; exact ih x hx
      | off s' hp hi => intro x hx; rw [hi] at hx; simp at hx
      | evict s' hp m hm hpos ev kept he ho hi => intro x hx; rw [hi] at hx; exact ih x (ho.sub.subset hx)
    | clear => intro x hx; simp [step, MemCache.clear] at hx

/-- With counted formats the bytes held are the sizes added up. -/
theorem held_total (key : Q → K) (ops : List (Op Q Weights S)) (hc : OpsCounted ops) (l : List (Item K Weights S))
    (hl : ∀ it ∈ l, it ∈ (run key matrixMemorySize (initial : Cache K Weights S) ops).items) :
    (l.map (fun it => ((it.data.1.map Weights.bytes).getD 0 : Int))).sum = total l := by
  unfold total
  congr 1
  apply List.map_congr_left
  intro it hit
  obtain ⟨w, h1, h2⟩ := C02_sizes_are_of_held_data key matrixMemorySize ops it (hl it hit)
  obtain ⟨src, q, h3, h4⟩ := items_from_some_source key matrixMemorySize ops it (hl it hit)
  have hw : w.Counted := hc src q w it.data.2 h3 (by rw [h4, ← h1])
  rw [h1, h2, counted_size w hw]
  rfl

/-- C123, after every operation: the bytes of the matrices held are those reported, and below the limit. -/
theorem C123_held_partial (key : Q → K) (ops : List (Op Q Weights S)) (hv : OpsValid ops) (hc : OpsCounted ops) :
    heldBytes (run key matrixMemorySize (initial : Cache K Weights S) ops)
        = (info (run key matrixMemorySize (initial : Cache K Weights S) ops)).currsize ∧
      (Limited (info (run key matrixMemorySize (initial : Cache K Weights S) ops)).policy →
        ∃ m, (info (run key matrixMemorySize (initial : Cache K Weights S) ops)).maxsize = some m ∧
          heldBytes (run key matrixMemorySize (initial : Cache K Weights S) ops) < m) := by
  have h1 := held_total key ops hc _ (fun it h => h)
  have h2 := (C02_accounting_exact (S := S) key matrixMemorySize ops).1
  have h3 : heldBytes (run key matrixMemorySize (initial : Cache K Weights S) ops)
      = (info (run key matrixMemorySize (initial : Cache K Weights S) ops)).currsize := h1.trans h2.symm
  refine ⟨h3, fun hl => ?_⟩
  obtain ⟨m, hm, _, _, hlt⟩ := C01_currsize_below_limit (S := S) key matrixMemorySize ops hv hl
  exact ⟨m, hm, by rw [h3]; exact hlt⟩

/-- The state in which weights are loaded leaves room for their estimate, if that fits at all. -/
theorem whileLoading_room {W : Type} (key : Q → K) (src : Source Q W S) (q : Q) (s s1 : Cache K W S) (hacc : Acc s) (hp : Limited s.policy)
    (m : Int) (hm : s.maxMem = some m) (hpos : 0 < m) (e : Entry) (he : src.findEntry q = .ok (some e))
    (h : whileLoading key src q s = some s1) (hfit : estimate e ≤ m ∨ s.strict = true) :
    s1.items.Sublist s.items ∧ total s1.items + estimate e ≤ m := by
  have hc : s.policy.hasCache = true := by rcases hp with hp | hp <;> rw [hp] <;> rfl
  have hl : s.policy.hasLimit = true := by rcases hp with hp | hp <;> rw [hp] <;> rfl
  simp only [whileLoading, hc, hl, if_true] at h
  cases hf : s.items.find? (fun it => decide (it.key = key q)) with
  | some it => rw [hf] at h; cases h
  | none =>
    rw [hf] at h
    simp only [createWithPreCheck, he, hm] at h
    by_cases hneed : m - s.currMem < estimate e ∧ estimate e ≤ m
    · obtain ⟨ev, kept, hr, hev, _⟩ := reduce_limited s m (some (m - estimate e)) hp hm hpos hacc.1
      rw [if_pos hneed, hr] at h
      simp only [Option.getD_some] at h hev
      split at h
      · simp at h
      · simp only [List.length_cons, List.length_nil, if_true, Option.some.injEq] at h
        subst h
        refine ⟨hev.sub, ?_⟩
        rcases hev.done with h | h
        · rw [h]; simp [total]; omega
        · simp only; omega
    · rw [if_neg hneed] at h
      simp only at h
      split at h
      · simp at h
      · rename_i hst
        simp only [List.length_cons, List.length_nil, if_true, Option.some.injEq] at h
        subst h
        refine ⟨List.Sublist.refl _, ?_⟩
        have := hacc.2
        rcases hfit with hfit | hfit
        · omega
        · rw [hfit] at hst; simp at hst; omega

/-- C123, while weights are loaded: with the size recorded in the inventory's index being their size, the matrices still held and the one
that is loaded fit the limit together — if the one fits at all, which strict mode makes sure of. -/
theorem C123_loading_partial (key : Q → K) (ops : List (Op Q Weights S)) (hv : OpsValid ops) (hc : OpsCounted ops)
    (src : Source Q Weights S) (q : Q) (s1 : Cache K Weights S) (e : Entry) (w : Weights) (sh : Option S) (m : Int)
    (hp : Limited (run key matrixMemorySize (initial : Cache K Weights S) ops).policy)
    (hm : (run key matrixMemorySize (initial : Cache K Weights S) ops).maxMem = some m)
    (he : src.findEntry q = .ok (some e)) (_hw : src.createFromEntry (some e) = .ok (some w, sh)) (hrec : e.memory = some (w.bytes : Int))
    (h : whileLoading key src q (run key matrixMemorySize initial ops) = some s1)
    (hfit : (w.bytes : Int) ≤ m ∨ (run key matrixMemorySize (initial : Cache K Weights S) ops).strict = true) :
    heldBytes s1 + w.bytes ≤ m := by
  obtain ⟨m', hm', hpos, _⟩ := C01_currsize_below_limit (S := S) key matrixMemorySize ops hv hp
  have : m' = m := by
    have hm' : (run key matrixMemorySize (initial : Cache K Weights S) ops).maxMem = some m' := hm'
    rw [hm] at hm'
    exact (Option.some.inj hm').symm
  subst this
  have hest : estimate e = w.bytes := by simp [estimate, hrec]
  obtain ⟨h1, h2⟩ := whileLoading_room key src q _ s1 (run_acc key matrixMemorySize ops) hp m' hm hpos e he h (by rw [hest]; exact hfit)
  have h3 : heldBytes s1 = total s1.items := held_total key ops hc s1.items (fun it hit => h1.subset hit)
  rw [h3, ← hest]
  exact h2

theorem createCalls_load {W : Type} (src : Source Q W S) (q : Q) :
    (src.createCalls q).length = 2 ↔ ∃ e, Call.load e ∈ src.createCalls q := by
  unfold Source.createCalls
  cases src.findEntry q <;> simp

theorem preCheck_load {W : Type} (src : Source Q W S) (q : Q) (s : Cache K W S) :
    (createWithPreCheck src q s).1.calls.length = 2 ↔ ∃ e, Call.load e ∈ (createWithPreCheck src q s).1.calls := by
  unfold createWithPreCheck
  split
  · simp
  · simp
  · split
    · simp
    · rename_i e _ _ m _
      generalize hr : (if m - s.currMem < estimate e ∧ estimate e ≤ m then reduce (some (m - estimate e)) s else (none, s)) = r
      obtain ⟨_ | _, s1⟩ := r
      · simp only [hr]
        split <;> simp
      · simp [hr]

/-- The loading of `whileLoading` is the one `get` makes: its calls tell whether there is one. -/
theorem C123_moment {W : Type} (key : Q → K) (sizeFn : W → Nat) (src : Source Q W S) (q : Q) (s : Cache K W S) :
    (∃ s1, whileLoading key src q s = some s1) ↔ ∃ e, Call.load e ∈ (get key sizeFn src q s).1.calls := by
  have hcr := createCalls_load src q
  have hpc := preCheck_load src q s
  have ite : ∀ (P : Prop) [Decidable P] (x : Cache K W S), (∃ s1, (if P then some x else none) = some s1) ↔ P := by
    intro P _ x
    by_cases h : P <;> simp [h]
  by_cases hc : s.policy.hasCache = true
  · simp only [whileLoading, get, hc, if_true]
    cases hf : s.items.find? (fun it => decide (it.key = key q)) with
    | some it => simp
    | none =>
      have hr : ∀ r, r = (if s.policy.hasLimit = true then createWithPreCheck src q s else (⟨src.create q, src.createCalls q⟩, s)) →
          (r.1.calls.length = 2 ↔ ∃ e, Call.load e ∈ r.1.calls) := by
        rintro r rfl
        by_cases hl : s.policy.hasLimit = true
        · simp only [hl, if_true]; exact hpc
        · simp only [if_neg hl]; exact hcr
      simp only [ite]
      generalize (if s.policy.hasLimit = true then createWithPreCheck src q s else (⟨src.create q, src.createCalls q⟩, s)) = r at hr
      have hr := hr r rfl
      obtain ⟨⟨res, calls⟩, s1⟩ := r
      rw [hr]
      rcases res with e | ⟨_ | w, sh⟩
      · rfl
      · rfl
      · simp only []
        split <;> rfl
  · simp only [whileLoading, get, if_neg hc, ite]
    rw [hcr]

/-! ### What the limit does not bound -/

namespace Demo

/-- request `q` ↦ a matrix of 4·q bytes; the index records its size for even requests; requests from 100 on are stored as COO -/
def stored : Source Nat Weights Unit where
  findEntry q := .ok (some ⟨if q % 2 = 0 then some ((4 * q : Nat) : Int) else none, q⟩)
  createFromEntry
    | none => .ok (none, none)
    | some e => .ok (some ⟨if e.tag < 100 then .csr else .coo, 2 * e.tag, e.tag, e.tag⟩, some ())

def wlru (m : Int) : Op Nat Weights Unit := .update ⟨some (some m), false, some .lru⟩
def wstrict (m : Int) : Op Nat Weights Unit := .update ⟨some (some m), true, some .lru⟩
def wg (q : Nat) : Op Nat Weights Unit := .get stored q

abbrev wafter (ops : List (Op Nat Weights Unit)) : Cache Nat Weights Unit := run id matrixMemorySize initial ops

end Demo

-- hypotheses of `C123_held_partial` and `C123_loading_partial`: 24 and 40 bytes held, 48 to be loaded, limit 80: the oldest goes first
example : OpsValid [Demo.wlru 80, Demo.wg 6, Demo.wg 10] ∧ OpsCounted [Demo.wlru 80, Demo.wg 6, Demo.wg 10] := by
  constructor
  · intro cfg h
    simp [Demo.wlru, Demo.wg] at h
    subst h
    exact ⟨some 80, .lru, rfl, rfl, fun _ => ⟨80, rfl, by decide⟩⟩
  · intro src q w sh h hw
    simp [Demo.wlru, Demo.wg] at h
    rcases h with ⟨rfl, rfl⟩ | ⟨rfl, rfl⟩ <;>
    · simp [Source.create, Demo.stored] at hw
      rw [← hw.1]
      exact Or.inl rfl

example : heldBytes (Demo.wafter [Demo.wlru 80, Demo.wg 6, Demo.wg 10]) = 64 := by decide +kernel
example : (whileLoading id Demo.stored 12 (Demo.wafter [Demo.wlru 80, Demo.wg 6, Demo.wg 10])).map heldBytes = some 0 := by decide +kernel
example : (whileLoading id Demo.stored 10 (Demo.wafter [Demo.wlru 80, Demo.wg 6, Demo.wg 8])).map heldBytes = some 32 := by decide +kernel
example : whileLoading id Demo.stored 30 (Demo.wafter [Demo.wstrict 80, Demo.wg 6, Demo.wg 8]) = none := by decide +kernel
example : (whileLoading id Demo.stored 30 (Demo.wafter [Demo.wlru 80, Demo.wg 6, Demo.wg 8])).map heldBytes = some 56 := by decide +kernel

/-- C123 fails for: (1) entries whose size is not recorded — nothing is evicted for them, strict mode lets them pass, and what is held and what
is loaded exceed the limit together; (2) matrices larger than the limit, outside strict mode; (3) matrices stored in a format whose arrays are
not counted: any number of bytes is held below any limit. -/
theorem C123_refuted :
    (∃ (src : Source Nat Weights Unit) (ops : List (Op Nat Weights Unit)) (q : Nat) (s1 : Cache Nat Weights Unit) (w : Weights) (m : Int),
      OpsValid ops ∧ OpsCounted ops ∧ (run id matrixMemorySize initial ops).strict = true ∧
      (run id matrixMemorySize initial ops).maxMem = some m ∧ whileLoading id src q (run id matrixMemorySize initial ops) = some s1 ∧
      src.create q = .ok (some w, some ()) ∧ w.Counted ∧ (w.bytes : Int) ≤ m ∧ m < heldBytes s1 + w.bytes) ∧
    (∃ (src : Source Nat Weights Unit) (ops : List (Op Nat Weights Unit)) (q : Nat) (s1 : Cache Nat Weights Unit) (e : Entry) (w : Weights) (m : Int),
      OpsValid ops ∧ OpsCounted ops ∧
      (run id matrixMemorySize initial ops).maxMem = some m ∧ whileLoading id src q (run id matrixMemorySize initial ops) = some s1 ∧
      src.findEntry q = .ok (some e) ∧ e.memory = some (w.bytes : Int) ∧
      src.create q = .ok (some w, some ()) ∧ w.Counted ∧ s1.items ≠ [] ∧ m < w.bytes) ∧
    (∀ m n : Nat, 0 < m → ∃ ops : List (Op Nat Weights Unit), OpsValid ops ∧
      (info (run id matrixMemorySize (initial : Cache Nat Weights Unit) ops)).maxsize = some (m : Int) ∧
      Limited (info (run id matrixMemorySize (initial : Cache Nat Weights Unit) ops)).policy ∧
      (n : Int) ≤ heldBytes (run id matrixMemorySize (initial : Cache Nat Weights Unit) ops)) := by
  have hv : ∀ (b : Bool) (m : Int) (l : List (Op Nat Weights Unit)), 0 < m → (∀ op ∈ l, ∃ src q, op = .get src q) →
      OpsValid (.update ⟨some (some m), b, some .lru⟩ :: l) := by
    intro b m l hm hl cfg h
    rcases List.mem_cons.mp h with h | h
    · cases h
      exact ⟨some m, .lru, rfl, rfl, fun _ => ⟨m, rfl, hm⟩⟩
    · obtain ⟨_, _, h⟩ := hl _ h
      cases h
  have hcount : ∀ (b : Bool) (l : List Nat), (∀ q ∈ l, q < 100) →
      OpsCounted (.update ⟨some (some 80), b, some .lru⟩ :: l.map Demo.wg) := by
    intro b l hl src q w sh h hw
    rcases List.mem_cons.mp h with h | h
    · cases h
    · obtain ⟨x, hx, h⟩ := List.mem_map.mp h
      cases h
      simp [Source.create, Demo.stored, hl q hx] at hw
      rw [← hw.1]
      exact Or.inl rfl
  refine ⟨⟨Demo.stored, .update ⟨some (some 80), true, some .lru⟩ :: [6, 10].map Demo.wg, 15,
      Demo.wafter (.update ⟨some (some 80), true, some .lru⟩ :: [6, 10].map Demo.wg), ⟨.csr, 30, 15, 15⟩, 80,
      hv _ _ _ (by decide) (by simp [Demo.wg]), hcount _ _ (by simp), rfl, rfl, rfl, rfl, Or.inl rfl, by decide, by decide +kernel⟩,
    ⟨Demo.stored, .update ⟨some (some 80), false, some .lru⟩ :: [6, 8].map Demo.wg, 30,
      Demo.wafter (.update ⟨some (some 80), false, some .lru⟩ :: [6, 8].map Demo.wg), ⟨some 120, 30⟩, ⟨.csr, 60, 30, 30⟩, 80,
      hv _ _ _ (by decide) (by simp [Demo.wg]), hcount _ _ (by simp), rfl, rfl, rfl, rfl, rfl, Or.inl rfl,
      by decide +kernel, by decide⟩, ?_⟩
  intro m n hm
  refine ⟨.update ⟨some (some (m : Int)), false, some .lru⟩ :: [.get (⟨fun _ => .ok (some ⟨none, 0⟩), fun _ => .ok (some ⟨.coo, n, n, n⟩, some ())⟩ : Source Nat Weights Unit) 0],
    hv _ _ _ (by exact_mod_cast hm) (by simp), ?_⟩
  have hm' : m ≠ 0 := by omega
  simp [run, step, update, updateAssign, updateFinish, initial, check, hm', reduce, policyReduce, sumSizes, Policy.hasCache, Policy.hasLimit,
    MemCache.get, createWithPreCheck, estimate, heldBytes, Weights.bytes, matrixMemorySize, info, Limited, lruLoop, clear]
  omega

end Verif.MemCache
