import Verif.MemCache.Lemmas
import Mathlib.Order.Basic
import Mathlib.Order.Nat
import Mathlib.Data.Nat.Basic
import Mathlib.Data.List.Nodup

/-!
# Properties C01–C12, C14 of the in-memory weights cache
-/

namespace Verif.MemCache

variable {Q K W S : Type} [LinearOrder K]

/-! ### A concrete instance used by the `example`s: request `q` has weights of `q` bytes -/

namespace Demo

/-- request `q` ↦ weights of size `q`, estimate `q`; request 0 has no weights; request 13 fails to load -/
def src : Source Nat Nat Unit where
  findEntry q := if q = 0 then .ok none else .ok (some ⟨some q, q⟩)
  createFromEntry
    | none => .ok (none, none)
    | some e => if e.tag = 13 then .error (.source 7) else .ok (some e.tag, some ())

def other : Source Nat Nat Unit where
  findEntry q := .ok (some ⟨some q, q + 1⟩)
  createFromEntry
    | none => .ok (none, none)
    | some e => .ok (some e.tag, some ())

def lru (m : Int) : Op Nat Nat Unit := .update ⟨some (some m), false, some .lru⟩
def largest (m : Int) : Op Nat Nat Unit := .update ⟨some (some m), false, some .largest⟩
def strict (m : Int) : Op Nat Nat Unit := .update ⟨some (some m), true, some .largest⟩
def unlimited : Op Nat Nat Unit := .update ⟨some (some 5), false, some .unlimited⟩
def off : Op Nat Nat Unit := .update ⟨some (some 5), false, some .off⟩
def g (q : Nat) : Op Nat Nat Unit := .get src q

abbrev after (ops : List (Op Nat Nat Unit)) : Cache Nat Nat Unit := run id id initial ops

def keys (s : Cache Nat Nat Unit) : List Nat := s.items.map (·.key)

end Demo

/-! ### C01 -/

/-- C01: in every history whose reconfigurations are valid, under `lru` and `largest` the reported size is below
the reported (positive) limit after every operation, also after operations that raise. -/
theorem C01_currsize_below_limit (key : Q → K) (sizeFn : W → Nat) (ops : List (Op Q W S)) (hv : OpsValid ops) :
    Limited (info (run key sizeFn (initial : Cache K W S) ops)).policy →
      ∃ m, (info (run key sizeFn (initial : Cache K W S) ops)).maxsize = some m ∧ 0 < m ∧
        0 ≤ (info (run key sizeFn (initial : Cache K W S) ops)).currsize ∧
        (info (run key sizeFn (initial : Cache K W S) ops)).currsize < m := by
  have h : OpsValid ops → Bound (run key sizeFn (initial : Cache K W S) ops) := by
    apply run_ind key sizeFn initial (fun ops s => OpsValid ops → Bound s)
    · intro _ _
      exact ⟨300 * 1024 * 1024, rfl, by decide, by show (0:Int) < _; decide⟩
    · intro ops op ih hv
      have hb := ih (fun cfg hc => hv cfg (by simp [hc]))
      have hacc := run_acc (S := S) key sizeFn ops
      cases op with
      | get src q => exact get_bound key sizeFn src q _ hacc hb
      | update cfg => exact update_bound cfg _ hacc hb (hv cfg (by simp))
      | clear =>
        intro hlim
        obtain ⟨m, h1, h2, _⟩ := hb hlim
        exact ⟨m, h1, h2, by simpa [step, clear] using h2⟩
  intro hlim
  obtain ⟨m, h1, h2, h3⟩ := h hv hlim
  refine ⟨m, h1, h2, ?_, h3⟩
  simp only [info]
  rw [(run_acc (S := S) key sizeFn ops).2]
  exact total_nonneg _

example : OpsValid [Demo.lru 10, Demo.g 4, Demo.g 5, Demo.g 13, Demo.g 3, Demo.largest 6] := by
  intro cfg h
  simp [Demo.lru, Demo.g, Demo.largest] at h
  rcases h with rfl | rfl
  · exact ⟨some 10, .lru, rfl, rfl, fun _ => ⟨10, rfl, by decide⟩⟩
  · exact ⟨some 6, .largest, rfl, rfl, fun _ => ⟨6, rfl, by decide⟩⟩

-- 4 is evicted when 3 arrives, then the limit 6 evicts 5
example : (info (Demo.after [Demo.lru 10, Demo.g 4, Demo.g 5, Demo.g 13, Demo.g 3])).currsize = 8 := by decide +kernel
example : (info (Demo.after [Demo.lru 10, Demo.g 4, Demo.g 5, Demo.g 13, Demo.g 3, Demo.largest 6])).currsize = 3 := by
  decide +kernel

/-- C01, recovery: whatever happened before (invalid configurations included), a lookup that loads weights and
returns them under `lru`/`largest` leaves the reported size below the limit. -/
theorem C01_recovers_after_load (key : Q → K) (sizeFn : W → Nat) (ops : List (Op Q W S)) (src : Source Q W S)
    (q : Q) (w : W) (sh : Option S)
    (hlim : Limited (run key sizeFn (initial : Cache K W S) ops).policy)
    (hmiss : ¬ Holds (run key sizeFn (initial : Cache K W S) ops) (key q))
    (hok : (get key sizeFn src q (run key sizeFn initial ops)).1.res = .ok (some w, sh)) :
    ∃ m, (info (get key sizeFn src q (run key sizeFn (initial : Cache K W S) ops)).2).maxsize = some m ∧ 0 < m ∧
      (info (get key sizeFn src q (run key sizeFn (initial : Cache K W S) ops)).2).currsize < m := by
  have hacc := run_acc (S := S) key sizeFn ops
  generalize run key sizeFn (initial : Cache K W S) ops = s at *
  have h := get_cases key sizeFn src q s hacc
  generalize (get key sizeFn src q s).1 = o at h hok
  generalize (get key sizeFn src q s).2 = s' at h
  cases h with
  | off h => simp [Limited, h] at hlim
  | hit h l1 it l2 hi hk => exact absurd ⟨it, by rw [hi]; simp, hk⟩ hmiss
  | unlErr h => simp [Limited, h] at hlim
  | unlNone h => simp [Limited, h] at hlim
  | unlSome h => simp [Limited, h] at hlim
  | limErr => cases hok
  | limNone => simp at hok
  | limSome h hm' ev kept ho hn w sh hc m' hmm hpos' ev2 kept2 ho2 he2 =>
    refine ⟨m', hmm, hpos', ?_⟩
    rcases he2.done with h | h
    · simp [info, h]; omega
    · exact h
  | limBad => cases hok

-- a state violating the bound (see below) that a further load repairs
example :
    let bad := Demo.after [Demo.lru 10, Demo.g 4, Demo.g 5, .update ⟨some (some 7), false, none⟩]
    Limited bad.policy ∧ ¬ Holds bad 3 ∧ (get id id Demo.src 3 bad).1.res = .ok (some 3, some ()) := by
  refine ⟨Or.inl (by decide +kernel), ?_, by rfl⟩
  rw [← find_none_iff]; decide +kernel

/-- The validity hypothesis of C01 is needed: an unknown policy name (possible through the environment variable,
which is not validated) raises after the new limit was stored, and the bound stays violated. -/
theorem C01_invalid_policy_name_breaks_bound :
    ∃ ops : List (Op Nat Nat Unit),
      let i := info (run id id (initial : Cache Nat Nat Unit) ops)
      Limited i.policy ∧ ∃ m, i.maxsize = some m ∧ 0 < m ∧ m < i.currsize :=
  ⟨[Demo.lru 10, Demo.g 4, Demo.g 5, .update ⟨some (some 7), false, none⟩],
    Or.inl (by decide +kernel), 7, by decide +kernel, by decide, by decide +kernel⟩

/-- Also needed: a zero limit is stored before it is rejected; the next lookup adds its weights and then raises. -/
theorem C01_zero_limit_breaks_bound :
    ∃ ops : List (Op Nat Nat Unit),
      let i := info (run id id (initial : Cache Nat Nat Unit) ops)
      Limited i.policy ∧ i.maxsize = some 0 ∧ i.currsize = 9 :=
  ⟨[Demo.lru 10, Demo.g 4, .update ⟨some (some 0), false, some .lru⟩, Demo.g 5],
    Or.inl (by decide +kernel), by decide +kernel, by decide +kernel⟩

/-! ### C02 -/

/-- C02: after every history (valid or not, raising or not) the reported size is the sum of the sizes of the
held matrices, the reported count is the number of held requests, and no request is held twice. -/
theorem C02_accounting_exact (key : Q → K) (sizeFn : W → Nat) (ops : List (Op Q W S)) :
    let s := run key sizeFn (initial : Cache K W S) ops
    (info s).currsize = total s.items ∧ (info s).count = s.items.length ∧ (s.items.map (·.key)).Nodup :=
  ⟨(run_acc key sizeFn ops).2, rfl, (run_acc key sizeFn ops).1⟩

/-- C02, sizes: each held matrix is accounted with its own size. -/
theorem C02_sizes_are_of_held_data (key : Q → K) (sizeFn : W → Nat) (ops : List (Op Q W S)) :
    ∀ it ∈ (run key sizeFn (initial : Cache K W S) ops).items,
      ∃ w, it.data.1 = some w ∧ it.size = sizeFn w := by
  apply run_ind key sizeFn initial (fun _ s => ∀ it ∈ s.items, ∃ w, it.data.1 = some w ∧ it.size = sizeFn w)
  · simp [initial]
  · intro ops op ih
    have hacc := run_acc (S := S) key sizeFn ops
    generalize run key sizeFn (initial : Cache K W S) ops = s at *
    cases op with
    | get src q =>
      have h := get_cases key sizeFn src q s hacc
      simp only [step]
      generalize (get key sizeFn src q s).1 = o at h
      generalize (get key sizeFn src q s).2 = s' at h
      cases h with
      | off => exact ih
      | hit _ l1 it l2 hi =>
        intro x hx
        apply ih; rw [hi]; simp at hx ⊢; grind
      | unlErr => exact ih
      | unlNone => exact ih
      | unlSome _ _ w sh =>
        intro x hx
        simp at hx
        rcases hx with hx | rfl
        · exact ih x hx
        · exact ⟨w, rfl, rfl⟩
      | limErr _ _ ev kept ho => exact fun x hx => ih x (ho.sub.subset hx)
      | limNone _ _ ev kept ho => exact fun x hx => ih x (ho.sub.subset hx)
      | limSome _ _ ev kept ho _ w sh _ _ _ _ ev2 kept2 ho2 =>
        intro x hx
        have := ho2.sub.subset hx
        simp at this
        rcases this with hx | rfl
        · exact ih x (ho.sub.subset hx)
        · exact ⟨w, rfl, rfl⟩
      | limBad _ _ w sh =>
        intro x hx
        simp at hx
        rcases hx with hx | rfl
        · exact ih x hx
        · exact ⟨w, rfl, rfl⟩
    | update cfg =>
      have h := update_cases cfg s hacc
      simp only [step]
      generalize update cfg s = r at h
      cases h with
      | same e s' hi => simp only; rw [hi]; exact ih
      | off s' _ hi => simp [hi]
      | evict s' _ _ _ _ ev kept _ ho hi =>
        simp only; rw [hi]; exact fun x hx => ih x (ho.sub.subset hx)
    | clear => simp [step, clear]

example : (info (Demo.after [Demo.lru 10, Demo.g 4, Demo.g 3, Demo.g 4])) = ⟨1, 2, some 10, 7, 2, .lru⟩ := by
  decide +kernel

/-! ### C03 -/

/-- Invariant behind C03. -/
theorem items_from_source (key : Q → K) (sizeFn : W → Nat) (src : Source Q W S)
    (ops : List (Op Q W S)) (hs : OnlySource src ops) :
    ∀ it ∈ (run key sizeFn (initial : Cache K W S) ops).items,
      ∃ q, Op.get src q ∈ ops ∧ key q = it.key ∧ src.create q = .ok it.data := by
  revert hs
  apply run_ind key sizeFn initial
    (fun ops s => OnlySource src ops → ∀ it ∈ s.items, ∃ q, Op.get src q ∈ ops ∧ key q = it.key ∧ src.create q = .ok it.data)
  · simp [initial]
  · intro ops op ih hs
    have ih := ih (fun src' q h => hs src' q (by simp [h]))
    have ih : ∀ it ∈ (run key sizeFn (initial : Cache K W S) ops).items,
        ∃ q, Op.get src q ∈ ops ++ [op] ∧ key q = it.key ∧ src.create q = .ok it.data := by
      intro it hit
      obtain ⟨q, h, h'⟩ := ih it hit
      exact ⟨q, by simp [h], h'⟩
    have hacc := run_acc (S := S) key sizeFn ops
    generalize run key sizeFn (initial : Cache K W S) ops = s at *
    cases op with
    | get src' q =>
      obtain rfl : src' = src := hs src' q (by simp)
      have h := get_cases key sizeFn src' q s hacc
      simp only [step]
      generalize (get key sizeFn src' q s).1 = o at h
      generalize (get key sizeFn src' q s).2 = s' at h
      cases h with
      | off => exact ih
      | hit _ l1 it l2 hi =>
        intro x hx
        apply ih; rw [hi]; simp at hx ⊢; grind
      | unlErr => exact ih
      | unlNone => exact ih
      | unlSome _ _ w sh hc =>
        intro x hx
        simp at hx
        rcases hx with hx | rfl
        · exact ih x hx
        · exact ⟨q, by simp, rfl, hc⟩
      | limErr _ _ ev kept ho => exact fun x hx => ih x (ho.sub.subset hx)
      | limNone _ _ ev kept ho => exact fun x hx => ih x (ho.sub.subset hx)
      | limSome _ _ ev kept ho _ w sh hc _ _ _ ev2 kept2 ho2 =>
        intro x hx
        have := ho2.sub.subset hx
        simp at this
        rcases this with hx | rfl
        · exact ih x (ho.sub.subset hx)
        · exact ⟨q, by simp, rfl, hc⟩
      | limBad _ _ w sh hc =>
        intro x hx
        simp at hx
        rcases hx with hx | rfl
        · exact ih x hx
        · exact ⟨q, by simp, rfl, hc⟩
    | update cfg =>
      have h := update_cases cfg s hacc
      simp only [step]
      generalize update cfg s = r at h
      cases h with
      | same e s' hi => simp only; rw [hi]; exact ih
      | off s' _ hi => simp [hi]
      | evict s' _ _ _ _ ev kept _ ho hi =>
        simp only; rw [hi]; exact fun x hx => ih x (ho.sub.subset hx)
    | clear => simp [step, clear]

/-- C03: for a fixed inventory and a key that does not merge the request with an earlier one with a different answer (C15 shows this of the real
key), whatever happened before, a lookup that returns returns exactly what the uncached lookup returns. -/
theorem C03_cached_result_is_uncached_result (key : Q → K) (sizeFn : W → Nat)
    (src : Source Q W S) (ops : List (Op Q W S)) (hs : OnlySource src ops) (q : Q)
    (hk : ∀ q', Op.get src q' ∈ ops → key q' = key q → src.create q' = src.create q) (d : Option W × Option S)
    (hok : (get key sizeFn src q (run key sizeFn (initial : Cache K W S) ops)).1.res = .ok d) :
    src.create q = .ok d := by
  have hi := items_from_source key sizeFn src ops hs
  have hacc := run_acc (S := S) key sizeFn ops
  generalize run key sizeFn (initial : Cache K W S) ops = s at *
  have h := get_cases key sizeFn src q s hacc
  generalize (get key sizeFn src q s).1 = o at h hok
  generalize (get key sizeFn src q s).2 = s' at h
  cases h with
  | hit _ l1 it l2 hit hkey =>
    obtain ⟨q', h0, h1, h2⟩ := hi it (by rw [hit]; simp)
    rw [← hk q' h0 (h1.trans hkey)]
    cases hok; exact h2
  | _ => first | (cases hok; done) | (simp_all)

/-- C03, converse: with valid configurations and strict mode off, a lookup raises only what the uncached lookup
raises; so caching changes nothing at all. -/
theorem C03_no_spurious_failure (key : Q → K) (sizeFn : W → Nat)
    (src : Source Q W S) (ops : List (Op Q W S)) (hs : OnlySource src ops) (hv : OpsValid ops) (q : Q)
    (hk : ∀ q', Op.get src q' ∈ ops → key q' = key q → src.create q' = src.create q)
    (hst : (run key sizeFn (initial : Cache K W S) ops).strict = false) :
    (get key sizeFn src q (run key sizeFn (initial : Cache K W S) ops)).1.res = src.create q := by
  have hc01 := C01_currsize_below_limit (S := S) key sizeFn ops hv
  have h03 := C03_cached_result_is_uncached_result (S := S) key sizeFn src ops hs q (hk := hk)
  have hacc := run_acc (S := S) key sizeFn ops
  generalize run key sizeFn (initial : Cache K W S) ops = s at *
  have h := get_cases key sizeFn src q s hacc
  generalize (get key sizeFn src q s).1 = o at h h03
  generalize (get key sizeFn src q s).2 = s' at h
  cases h with
  | hit => exact (h03 _ rfl).symm
  | off => rfl
  | unlErr _ _ e hc => exact hc.symm
  | unlNone _ _ e hc => exact hc.symm
  | unlSome _ _ w e hc => exact hc.symm
  | limErr hl _ ev kept ho _ e c hc =>
    rcases hc with hc | ⟨_, en, _, hc | hc⟩
    · exact hc.1.symm
    · rw [hst] at hc; cases hc.2.1
    · obtain ⟨m, h1, h2, _⟩ := hc01 hl
      exact absurd ⟨m, h1, h2⟩ hc.1
  | limNone _ _ _ _ _ _ _ hc => exact hc.symm
  | limSome _ _ _ _ _ _ _ _ hc => exact hc.symm
  | limBad hl _ _ _ _ hbad =>
    obtain ⟨m, h1, h2, _⟩ := hc01 hl
    exact absurd ⟨m, h1, h2⟩ hbad

example : OnlySource Demo.src [Demo.lru 10, Demo.g 4, Demo.g 5, Demo.g 13, Demo.g 3, Demo.g 4] := by
  intro src' q h; simp [Demo.lru, Demo.g] at h; grind
example : (get id id Demo.src 5 (Demo.after [Demo.lru 10, Demo.g 4, Demo.g 5, Demo.g 13, Demo.g 3, Demo.g 4])).1.res
    = .ok (some 5, some ()) := by rfl

/-- `C03_cached_result_is_uncached_result` on this history. -/
example : Demo.src.create 5 = .ok (some 5, some ()) :=
  C03_cached_result_is_uncached_result id id Demo.src [Demo.lru 10, Demo.g 4, Demo.g 5, Demo.g 13, Demo.g 3, Demo.g 4]
    (by intro src' q h; simp [Demo.lru, Demo.g] at h; grind) 5 (by intro q' _ h; rw [show q' = 5 from h]) _ rfl

/-! ### C04 -/

/-- C04: a lookup of a held request is a hit: it returns, calls nothing and counts one hit. -/
theorem C04_held_is_hit (key : Q → K) (sizeFn : W → Nat) (ops : List (Op Q W S)) (src : Source Q W S) (q : Q)
    (hon : (run key sizeFn (initial : Cache K W S) ops).policy ≠ .off)
    (hh : Holds (run key sizeFn (initial : Cache K W S) ops) (key q)) :
    let s := run key sizeFn (initial : Cache K W S) ops
    let r := get key sizeFn src q s
    r.1.calls = [] ∧ (∃ d, r.1.res = .ok d) ∧ (info r.2).hits = (info s).hits + 1 ∧
      (info r.2).misses = (info s).misses := by
  have hacc := run_acc (S := S) key sizeFn ops
  generalize run key sizeFn (initial : Cache K W S) ops = s at *
  have h := get_cases key sizeFn src q s hacc
  simp only
  generalize (get key sizeFn src q s).1 = o at h
  generalize (get key sizeFn src q s).2 = s' at h
  cases h with
  | off h => exact absurd h hon
  | hit => exact ⟨rfl, ⟨_, rfl⟩, rfl, rfl⟩
  | unlErr _ h => exact absurd hh h
  | unlNone _ h => exact absurd hh h
  | unlSome _ h => exact absurd hh h
  | limErr _ h => exact absurd hh h
  | limNone _ h => exact absurd hh h
  | limSome _ h => exact absurd hh h
  | limBad _ h => exact absurd hh h

/-- C04: a lookup of a request that is not held and returns is a miss: it looks the entry up, loads exactly once
and counts one miss. -/
theorem C04_not_held_is_miss (key : Q → K) (sizeFn : W → Nat) (ops : List (Op Q W S)) (src : Source Q W S) (q : Q)
    (hon : (run key sizeFn (initial : Cache K W S) ops).policy ≠ .off)
    (hh : ¬ Holds (run key sizeFn (initial : Cache K W S) ops) (key q)) (d : Option W × Option S)
    (hok : (get key sizeFn src q (run key sizeFn (initial : Cache K W S) ops)).1.res = .ok d) :
    let s := run key sizeFn (initial : Cache K W S) ops
    let r := get key sizeFn src q s
    loads r.1.calls = 1 ∧ (info r.2).hits = (info s).hits ∧ (info r.2).misses = (info s).misses + 1 := by
  have hacc := run_acc (S := S) key sizeFn ops
  generalize run key sizeFn (initial : Cache K W S) ops = s at *
  have h := get_cases key sizeFn src q s hacc
  simp only
  generalize (get key sizeFn src q s).1 = o at h hok
  generalize (get key sizeFn src q s).2 = s' at h
  have hl : ∀ d, src.create q = .ok d → loads (src.createCalls q) = 1 := by
    intro d hd
    unfold Source.create at hd
    unfold Source.createCalls
    cases hf : src.findEntry q <;> simp_all [loads]
  cases h with
  | off h => exact absurd h hon
  | hit _ l1 it l2 hi hk => exact absurd ⟨it, by rw [hi]; simp, hk⟩ hh
  | unlErr => cases hok
  | unlNone _ _ _ hc => exact ⟨hl _ hc, rfl, rfl⟩
  | unlSome _ _ _ _ hc => exact ⟨hl _ hc, rfl, rfl⟩
  | limErr => cases hok
  | limNone _ _ _ _ _ _ _ hc => exact ⟨hl _ hc, rfl, rfl⟩
  | limSome _ _ _ _ _ _ _ _ hc => exact ⟨hl _ hc, rfl, rfl⟩
  | limBad => cases hok

theorem served_eq (key : Q → K) (sizeFn : W → Nat) (ops : List (Op Q W S)) :
    ∀ (s : Cache K W S), Acc s → Bound s → OffEmpty s → OpsValid ops →
      (run key sizeFn s ops).hits + (run key sizeFn s ops).misses
        = served key sizeFn s (s.hits + s.misses) ops := by
  induction ops with
  | nil => intro s _ _ _ _; rfl
  | cons op ops ih =>
    intro s hacc hb hoff0 hv
    have hb' : Bound (step key sizeFn s op).2 := by
      cases op with
      | get src q => exact get_bound key sizeFn src q _ hacc hb
      | update cfg => exact update_bound cfg _ hacc hb (hv cfg (by simp))
      | clear =>
        intro hlim
        obtain ⟨m, h1, h2, _⟩ := hb hlim
        exact ⟨m, h1, h2, by simpa [step, clear] using h2⟩
    have := ih (step key sizeFn s op).2 (step_acc key sizeFn s op hacc) hb'
      (step_offEmpty key sizeFn s op hacc hoff0) (fun cfg hc => hv cfg (by simp [hc]))
    show (run key sizeFn (step key sizeFn s op).2 ops).hits + (run key sizeFn (step key sizeFn s op).2 ops).misses = _
    rw [this, served]
    congr 1
    clear this hb' ih
    cases op with
    | get src q =>
      have h := get_cases key sizeFn src q s hacc
      simp only [step]
      generalize (get key sizeFn src q s).1 = o at h
      generalize (get key sizeFn src q s).2 = s' at h
      cases h with
      | off h => simp [servedNext, info, h]
      | hit h => simp [servedNext, info, h]; omega
      | unlErr h => simp [servedNext, info, h]
      | unlNone h => simp [servedNext, info, h]; omega
      | unlSome h => simp [servedNext, info, h]; omega
      | limErr h => rcases h with h | h <;> simp [servedNext, info, h]
      | limNone h => rcases h with h | h <;> simp [servedNext, info, h] <;> omega
      | limSome h => rcases h with h | h <;> simp [servedNext, info, h] <;> omega
      | limBad hl _ _ _ _ hbad =>
        obtain ⟨m, h1, h2, _⟩ := hb hl
        exact absurd ⟨m, h1, h2⟩ hbad
    | update cfg =>
      have h := update_cases cfg s hacc
      simp only [step]
      generalize update cfg s = r at h
      cases h with
      | same e s' hi hc hh hm hoff _ =>
        by_cases hp : s'.policy = .off
        · have := hoff0 (hoff hp)
          simp [servedNext, info, hp, hh, hm, this]
        · simp [servedNext, info, hp, hh, hm]
      | off s' hp hi hc hh hm => simp [servedNext, info, hp, hh, hm]
      | evict s' hp m hm hpos ev kept he ho hi hc hh hmi =>
        rcases hp with hp | hp <;> simp [servedNext, info, hp, hh, hmi]
    | clear => simp [servedNext, step, clear]

/-- C04: along every valid history, hits + misses is the number of lookups that returned while caching was on,
since the last clear (or switch to off). -/
theorem C04_counters_count_served (key : Q → K) (sizeFn : W → Nat) (ops : List (Op Q W S)) (hv : OpsValid ops) :
    let i := info (run key sizeFn (initial : Cache K W S) ops)
    i.hits + i.misses = served key sizeFn (initial : Cache K W S) 0 ops :=
  served_eq key sizeFn ops initial initial_acc
    (fun _ => ⟨300 * 1024 * 1024, rfl, by decide, by show (0 : Int) < _; decide⟩) (by intro h; cases h) hv

-- 7 gets: one fails (13), one is served with the cache off, two before the clear
example : served id id (initial : Cache Nat Nat Unit) 0
    [Demo.lru 10, Demo.g 4, Demo.g 4, .clear, Demo.g 4, Demo.g 13, Demo.g 0, Demo.g 4] = 3 := by decide +kernel
example : Holds (Demo.after [Demo.lru 10, Demo.g 4, Demo.g 5]) 4 ∧
    ¬ Holds (Demo.after [Demo.lru 10, Demo.g 4, Demo.g 5]) 3 := by
  rw [← find_none_iff]
  exact ⟨⟨⟨4, (some 4, some ()), 4⟩, by decide +kernel, rfl⟩, by decide +kernel⟩

/-- `C04_held_is_hit` for 4, `C04_not_held_is_miss` for 3. -/
example : (get id id Demo.other 4 (Demo.after [Demo.lru 10, Demo.g 4, Demo.g 5])).1.calls = [] ∧
    loads (get id id Demo.src 3 (Demo.after [Demo.lru 10, Demo.g 4, Demo.g 5])).1.calls = 1 :=
  ⟨(C04_held_is_hit id id [Demo.lru 10, Demo.g 4, Demo.g 5] Demo.other 4 (by decide +kernel) ⟨⟨4, (some 4, some ()), 4⟩, by decide +kernel, rfl⟩).1,
    (C04_not_held_is_miss id id [Demo.lru 10, Demo.g 4, Demo.g 5] Demo.src 3 (by decide +kernel) (by rw [← find_none_iff]; decide +kernel) _ rfl).1⟩

/-! ### C05 -/

omit [LinearOrder K] in
theorem lastGetFrom_append [DecidableEq K] (key : Q → K) (k : K) (ops ops' : List (Op Q W S)) (now best : Nat) :
    lastGetFrom key k now best (ops ++ ops') =
      lastGetFrom key k (now + ops.length) (lastGetFrom key k now best ops) ops' := by
  induction ops generalizing now best with
  | nil => simp [lastGetFrom]
  | cons op ops ih =>
    cases op <;> simp [lastGetFrom, ih, Nat.add_assoc, Nat.add_comm]

omit [LinearOrder K] in
theorem lastGetFrom_le [DecidableEq K] (key : Q → K) (k : K) (ops : List (Op Q W S)) (now best : Nat)
    (h : best ≤ now) : lastGetFrom key k now best ops ≤ now + ops.length := by
  induction ops generalizing now best with
  | nil => simpa [lastGetFrom] using h
  | cons op ops ih =>
    cases op with
    | get src q =>
      have := ih (now + 1) (if key q = k then now + 1 else best) (by split <;> omega)
      simp only [lastGetFrom, List.length_cons]; omega
    | update cfg => have := ih (now + 1) best (by omega); simp only [lastGetFrom, List.length_cons]; omega
    | clear => have := ih (now + 1) best (by omega); simp only [lastGetFrom, List.length_cons]; omega

omit [LinearOrder K] in
theorem lastGet_snoc [DecidableEq K] (key : Q → K) (ops : List (Op Q W S)) (op : Op Q W S) (k : K) :
    lastGet key (ops ++ [op]) k =
      (match op with
        | .get _ q => if key q = k then ops.length + 1 else lastGet key ops k
        | _ => lastGet key ops k) ∧ lastGet key ops k ≤ ops.length := by
  refine ⟨?_, by have := lastGetFrom_le key k ops 0 0 (by simp); simpa [lastGet] using this⟩
  unfold lastGet
  rw [lastGetFrom_append]
  cases op <;> simp [lastGetFrom]

/-- The held matrices are ordered by last use. -/
def SortedByUse (key : Q → K) (ops : List (Op Q W S)) (items : List (Item K W S)) : Prop :=
  items.Pairwise (fun a b => lastGet key ops a.key < lastGet key ops b.key)

theorem sorted_other (key : Q → K) (ops : List (Op Q W S)) (src : Source Q W S) (q : Q) (items : List (Item K W S))
    (hs : SortedByUse key ops items) (hne : ∀ x ∈ items, x.key ≠ key q) :
    SortedByUse key (ops ++ [.get src q]) items := by
  refine List.Pairwise.imp_of_mem ?_ hs
  intro a b ha hb hab
  rw [(lastGet_snoc key ops _ _).1, (lastGet_snoc key ops _ _).1]
  simp only
  rw [if_neg (fun h => hne a ha h.symm), if_neg (fun h => hne b hb h.symm)]
  exact hab

theorem sorted_snoc (key : Q → K) (ops : List (Op Q W S)) (src : Source Q W S) (q : Q) (items : List (Item K W S))
    (hs : SortedByUse key ops items) (hne : ∀ x ∈ items, x.key ≠ key q) (it : Item K W S) (hit : it.key = key q) :
    SortedByUse key (ops ++ [.get src q]) (items ++ [it]) := by
  unfold SortedByUse
  rw [List.pairwise_append]
  refine ⟨sorted_other key ops src q items hs hne, by simp, ?_⟩
  intro a ha b hb
  simp at hb
  subst hb
  rw [(lastGet_snoc key ops _ _).1, (lastGet_snoc key ops _ _).1]
  simp only
  rw [if_neg (fun h => hne a ha h.symm), if_pos hit.symm]
  have := (lastGet_snoc key ops (Op.clear) a.key).2
  omega

theorem step_sorted (key : Q → K) (sizeFn : W → Nat) (ops : List (Op Q W S)) (s : Cache K W S) (op : Op Q W S)
    (hacc : Acc s) (hoe : OffEmpty s) (hs : SortedByUse key ops s.items) :
    SortedByUse key (ops ++ [op]) (step key sizeFn s op).2.items := by
  cases op with
  | get src q =>
    have h := get_cases key sizeFn src q s hacc
    simp only [step]
    generalize (get key sizeFn src q s).1 = o at h
    generalize (get key sizeFn src q s).2 = s' at h
    have hno : ∀ (kept : List (Item K W S)), kept.Sublist s.items → ¬ Holds s (key q) →
        SortedByUse key ops kept ∧ ∀ x ∈ kept, x.key ≠ key q :=
      fun kept hsub hm => ⟨List.Pairwise.sublist hsub hs, fun x hx e => hm ⟨x, hsub.subset hx, e⟩⟩
    cases h with
    | off h =>
      rw [(hoe h).1]; simp [SortedByUse]
    | hit _ l1 it l2 hi hk =>
      have hn := hacc.1
      rw [hi] at hs hn
      refine sorted_snoc key ops src q (l1 ++ l2) (List.Pairwise.sublist (by simp) hs) ?_ it hk
      intro x hx e
      rw [List.map_append, List.map_cons, List.nodup_append] at hn
      simp only [List.mem_append, List.nodup_cons] at hx hn
      rcases hx with hx | hx
      · exact hn.2.2 x.key (List.mem_map_of_mem (f := (·.key)) hx) it.key (by simp) (e.trans hk.symm)
      · exact hn.2.1.1 (by rw [hk, ← e]; exact List.mem_map_of_mem (f := (·.key)) hx)
    | unlErr _ hm => exact sorted_other key ops src q _ hs (hno _ (List.Sublist.refl _) hm).2
    | unlNone _ hm => exact sorted_other key ops src q _ hs (hno _ (List.Sublist.refl _) hm).2
    | unlSome _ hm => exact sorted_snoc key ops src q _ hs (hno _ (List.Sublist.refl _) hm).2 _ rfl
    | limErr _ hm ev kept ho =>
      exact sorted_other key ops src q _ (hno _ ho.sub hm).1 (hno _ ho.sub hm).2
    | limNone _ hm ev kept ho =>
      exact sorted_other key ops src q _ (hno _ ho.sub hm).1 (hno _ ho.sub hm).2
    | limSome _ hm ev kept ho _ w sh _ _ _ _ ev2 kept2 ho2 =>
      exact List.Pairwise.sublist ho2.sub
        (sorted_snoc key ops src q _ (hno _ ho.sub hm).1 (hno _ ho.sub hm).2 _ rfl)
    | limBad _ hm => exact sorted_snoc key ops src q _ hs (hno _ (List.Sublist.refl _) hm).2 _ rfl
  | update cfg =>
    have hsame : ∀ l : List (Item K W S), SortedByUse key ops l → SortedByUse key (ops ++ [.update cfg]) l := by
      intro l hl
      refine List.Pairwise.imp ?_ hl
      intro a b hab
      rw [(lastGet_snoc key ops _ _).1, (lastGet_snoc key ops _ _).1]
      exact hab
    have h := update_cases cfg s hacc
    simp only [step]
    generalize update cfg s = r at h
    cases h with
    | same e s' hi => simp only; rw [hi]; exact hsame _ hs
    | off s' _ hi => simp only; rw [hi]; simp [SortedByUse]
    | evict s' _ _ _ _ ev kept _ ho hi =>
      simp only; rw [hi]; exact hsame _ (List.Pairwise.sublist ho.sub hs)
  | clear => simp [step, clear, SortedByUse]

theorem run_offEmpty (key : Q → K) (sizeFn : W → Nat) (ops : List (Op Q W S)) :
    OffEmpty (run key sizeFn (initial : Cache K W S) ops) :=
  run_ind key sizeFn _ (fun ops s => OffEmpty s) (by intro h; cases h)
    (fun ops _ h => step_offEmpty key sizeFn _ _ (run_acc key sizeFn ops) h) ops

theorem run_sorted (key : Q → K) (sizeFn : W → Nat) (ops : List (Op Q W S)) :
    SortedByUse key ops (run key sizeFn (initial : Cache K W S) ops).items :=
  run_ind key sizeFn _ (fun ops s => SortedByUse key ops s.items) (by simp [SortedByUse, initial])
    (fun ops op h => step_sorted key sizeFn ops _ op (run_acc key sizeFn ops) (run_offEmpty key sizeFn ops) h) ops

/-- C05: after any history, if an operation that ends under policy `lru` drops request `a` and request `b` is held
after it, then `a` was last looked up before `b`. -/
theorem C05_lru_evicts_least_recent (key : Q → K) (sizeFn : W → Nat) (ops : List (Op Q W S)) (op : Op Q W S)
    (a b : K)
    (hp : (run key sizeFn (initial : Cache K W S) (ops ++ [op])).policy = .lru)
    (ha : Holds (run key sizeFn (initial : Cache K W S) ops) a)
    (ha' : ¬ Holds (run key sizeFn (initial : Cache K W S) (ops ++ [op])) a)
    (hb : Holds (run key sizeFn (initial : Cache K W S) (ops ++ [op])) b) :
    lastGet key (ops ++ [op]) a < lastGet key (ops ++ [op]) b := by
  rw [run_snoc] at *
  have hacc := run_acc (S := S) key sizeFn ops
  have hsort := run_sorted (S := S) key sizeFn ops
  generalize run key sizeFn (initial : Cache K W S) ops = s at *
  cases op with
  | get src q =>
    have hpol := (get_policy key sizeFn src q s hacc).1
    simp only [step] at hp ha' hb
    rw [hpol] at hp
    have h := get_cases key sizeFn src q s hacc
    generalize (get key sizeFn src q s).1 = o at h
    generalize (get key sizeFn src q s).2 = s' at h ha' hb
    obtain ⟨x, hx, rfl⟩ := ha
    obtain ⟨y, hy, rfl⟩ := hb
    have hx' : x ∉ s'.items := fun h => ha' ⟨x, h, rfl⟩
    -- evictions of a prefix
    have key1 : ∀ ev kept, s.items = ev ++ kept → ¬ Holds s (key q) → x ∉ kept → y ∈ kept →
        lastGet key (ops ++ [.get src q]) x.key < lastGet key (ops ++ [.get src q]) y.key := by
      intro ev kept hev hm hxk hyk
      have hso := sorted_other key ops src q s.items hsort (fun z hz e => hm ⟨z, hz, e⟩)
      unfold SortedByUse at hso
      rw [hev, List.pairwise_append] at hso
      rw [hev] at hx
      rcases List.mem_append.1 hx with h | h
      · exact hso.2.2 x h y hyk
      · exact absurd h hxk
    cases h with
    | off => exact absurd hx hx'
    | hit _ l1 it l2 hi _ => rw [hi] at hx; exfalso; apply hx'; simp at hx ⊢; grind
    | unlErr => exact absurd hx hx'
    | unlNone => exact absurd hx hx'
    | unlSome => exfalso; apply hx'; simp [hx]
    | limErr _ hm ev kept ho => exact key1 ev kept (ho.lru hp) hm hx' hy
    | limNone _ hm ev kept ho => exact key1 ev kept (ho.lru hp) hm hx' hy
    | limSome _ hm ev kept ho _ w sh _ m _ _ ev2 kept2 ho2 =>
      have hso := sorted_snoc key ops src q s.items hsort (fun z hz e => hm ⟨z, hz, e⟩)
        (⟨key q, (some w, sh), sizeFn w⟩ : Item K W S) rfl
      have e2 := ho2.lru hp
      have e1 := ho.lru hp
      unfold SortedByUse at hso
      rw [e1, List.append_assoc, e2, ← List.append_assoc, List.pairwise_append] at hso
      have : x ∈ ev ++ ev2 := by
        rw [e1] at hx
        rcases List.mem_append.1 hx with h | h
        · simp [h]
        · have : x ∈ ev2 ++ kept2 := by rw [← e2]; simp [h]
          rcases List.mem_append.1 this with h | h
          · simp [h]
          · exact absurd h hx'
      exact hso.2.2 x this y hy
    | limBad => exfalso; apply hx'; simp [hx]
  | update cfg =>
    simp only [step] at hp ha' hb
    have h := update_cases cfg s hacc
    generalize update cfg s = r at h hp ha' hb
    obtain ⟨x, hx, rfl⟩ := ha
    obtain ⟨y, hy, rfl⟩ := hb
    have hx' : x ∉ r.2.items := fun h => ha' ⟨x, h, rfl⟩
    rw [(lastGet_snoc key ops _ _).1, (lastGet_snoc key ops _ _).1]
    simp only
    cases h with
    | same e s' hi => rw [hi] at hx'; exact absurd hx hx'
    | off s' _ hi => rw [hi] at hy; cases hy
    | evict s' _ _ _ _ ev kept _ ho hi =>
      simp only at hx' hy hp
      rw [hi] at hx' hy
      have := ho.lru hp
      unfold SortedByUse at hsort
      rw [this, List.pairwise_append] at hsort
      rw [this] at hx
      rcases List.mem_append.1 hx with h | h
      · exact hsort.2.2 x h y hy
      · exact absurd h hx'
  | clear =>
    obtain ⟨y, hy, _⟩ := hb
    simp [step, clear] at hy

-- 5 is older than 4 (used again), so it goes when 3 arrives
example : Demo.keys (Demo.after [Demo.lru 10, Demo.g 4, Demo.g 5, Demo.g 4]) = [5, 4] ∧
    Demo.keys (Demo.after [Demo.lru 10, Demo.g 4, Demo.g 5, Demo.g 4, Demo.g 3]) = [4, 3] := by decide +kernel
example : lastGet id [Demo.lru 10, Demo.g 4, Demo.g 5, Demo.g 4, Demo.g 3] 5 = 3 ∧
    lastGet id [Demo.lru 10, Demo.g 4, Demo.g 5, Demo.g 4, Demo.g 3] 4 = 4 := by decide +kernel

/-! ### C06 -/

/-- C06: after any history, if an operation that ends under policy `largest` drops a held matrix `a` and keeps a held
matrix `b`, then `a` is at least as large as `b`. -/
theorem C06_largest_evicts_largest (key : Q → K) (sizeFn : W → Nat) (ops : List (Op Q W S)) (op : Op Q W S)
    (hp : (run key sizeFn (initial : Cache K W S) (ops ++ [op])).policy = .largest) :
    let s := run key sizeFn (initial : Cache K W S) ops
    let s' := run key sizeFn (initial : Cache K W S) (ops ++ [op])
    ∀ a ∈ s.items, a ∉ s'.items → ∀ b ∈ s.items, b ∈ s'.items → b.size ≤ a.size := by
  rw [run_snoc] at *
  have hacc := run_acc (S := S) key sizeFn ops
  generalize run key sizeFn (initial : Cache K W S) ops = s at *
  intro s0 s1 x hx hx' y hy hy'
  -- one round of evictions
  have key1 : ∀ (items ev kept : List (Item K W S)), EvOrder .largest items ev kept → x ∈ items → x ∉ kept →
      y ∈ kept → y.size ≤ x.size := by
    intro items ev kept ho hxi hxk hyk
    have : x ∈ ev := by
      rcases List.mem_append.1 (ho.perm.mem_iff.1 hxi) with h | h
      · exact h
      · exact absurd h hxk
    obtain ⟨e1, e2, rfl⟩ := List.append_of_mem this
    exact ho.largest rfl e1 x e2 rfl y (by simp [hyk])
  cases op with
  | get src q =>
    have hpol := (get_policy key sizeFn src q s hacc).1
    simp only [step] at hp
    rw [hpol] at hp
    have h := get_cases key sizeFn src q s hacc
    simp only [s1, s0, step] at *
    generalize (get key sizeFn src q s).1 = o at h
    generalize (get key sizeFn src q s).2 = s' at h hx' hy'
    cases h with
    | off => exact absurd hx hx'
    | hit _ l1 it l2 hi _ => rw [hi] at hx; exfalso; apply hx'; simp at hx ⊢; grind
    | unlErr => exact absurd hx hx'
    | unlNone => exact absurd hx hx'
    | unlSome => exfalso; apply hx'; simp [hx]
    | limErr _ hm ev kept ho => rw [hp] at ho; exact key1 _ ev kept ho hx hx' hy'
    | limNone _ hm ev kept ho => rw [hp] at ho; exact key1 _ ev kept ho hx hx' hy'
    | limSome _ hm ev kept ho _ w sh _ m _ _ ev2 kept2 ho2 =>
      rw [hp] at ho ho2
      by_cases hxk : x ∈ kept
      · exact key1 _ ev2 kept2 ho2 (by simp [hxk]) hx' hy'
      · have hyk : y ∈ kept := by
          have := ho2.sub.subset hy'
          simp at this
          rcases this with h | h
          · exact h
          · exact absurd ⟨y, hy, by rw [h]⟩ hm
        exact key1 _ ev kept ho hx hxk hyk
    | limBad => exfalso; apply hx'; simp [hx]
  | update cfg =>
    have h := update_cases cfg s hacc
    simp only [s1, s0, step] at *
    generalize update cfg s = r at h hp hx' hy'
    cases h with
    | same e s' hi => simp only at hx'; rw [hi] at hx'; exact absurd hx hx'
    | off s' _ hi => simp only at hy'; rw [hi] at hy'; cases hy'
    | evict s' _ _ _ _ ev kept _ ho hi =>
      simp only at hx' hy' hp
      rw [hi] at hx' hy'
      rw [hp] at ho
      exact key1 _ ev kept ho hx hx' hy'
  | clear => simp [s1, step, clear] at hy'

/-- C06, new arrivals: under `largest`, weights that were loaded but not kept are at least as large as everything
that is held afterwards. -/
theorem C06_rejected_arrival_is_largest (key : Q → K) (sizeFn : W → Nat) (ops : List (Op Q W S)) (src : Source Q W S)
    (q : Q) (w : W) (sh : Option S)
    (hp : (run key sizeFn (initial : Cache K W S) ops).policy = .largest)
    (hok : (get key sizeFn src q (run key sizeFn (initial : Cache K W S) ops)).1.res = .ok (some w, sh))
    (hnot : ¬ Holds (get key sizeFn src q (run key sizeFn (initial : Cache K W S) ops)).2 (key q)) :
    ∀ b ∈ (get key sizeFn src q (run key sizeFn (initial : Cache K W S) ops)).2.items, b.size ≤ sizeFn w := by
  have hacc := run_acc (S := S) key sizeFn ops
  generalize run key sizeFn (initial : Cache K W S) ops = s at *
  have h := get_cases key sizeFn src q s hacc
  generalize (get key sizeFn src q s).1 = o at h hok
  generalize (get key sizeFn src q s).2 = s' at h hnot
  intro y hy
  cases h with
  | off h => rw [hp] at h; cases h
  | hit _ l1 it l2 hi hk => exact absurd ⟨it, by simp, hk⟩ hnot
  | unlErr h => rw [hp] at h; cases h
  | unlNone h => rw [hp] at h; cases h
  | unlSome h => rw [hp] at h; cases h
  | limErr => cases hok
  | limNone => simp at hok
  | limSome _ hm ev kept ho _ w' sh' _ m _ _ ev2 kept2 ho2 =>
    simp at hok
    obtain ⟨rfl, rfl⟩ := hok
    have hmem : (⟨key q, (some w', sh'), sizeFn w'⟩ : Item K W S) ∈ ev2 := by
      have : (⟨key q, (some w', sh'), sizeFn w'⟩ : Item K W S) ∈ ev2 ++ kept2 := ho2.perm.mem_iff.1 (by simp)
      rcases List.mem_append.1 this with h | h
      · exact h
      · exact absurd ⟨_, h, rfl⟩ hnot
    obtain ⟨e1, e2, he⟩ := List.append_of_mem hmem
    exact ho2.largest hp e1 _ e2 he y (by simp [show y ∈ kept2 from hy])
  | limBad => cases hok

example : Demo.keys (Demo.after [Demo.largest 10, Demo.g 5, Demo.g 2]) = [5, 2] ∧
    Demo.keys (Demo.after [Demo.largest 10, Demo.g 5, Demo.g 2, Demo.g 4]) = [2, 4] := by decide +kernel

/-- `C06_largest_evicts_largest`: 5 is dropped for 4, 2 stays. -/
example : (2 : Nat) ≤ 5 :=
  C06_largest_evicts_largest id id [Demo.largest 10, Demo.g 5, Demo.g 2] (Demo.g 4) (by decide +kernel) ⟨5, (some 5, some ()), 5⟩ (by decide +kernel)
    (by decide +kernel) ⟨2, (some 2, some ()), 2⟩ (by decide +kernel) (by decide +kernel)

/-! ### C07 -/

/-- C07: a reconfiguration that drops matrices was forced to: putting back one of the dropped matrices would bring
the content to the limit again. -/
theorem C07_update_evicts_only_if_needed (key : Q → K) (sizeFn : W → Nat) (ops : List (Op Q W S)) (cfg : Cfg) :
    let s := run key sizeFn (initial : Cache K W S) ops
    let s' := run key sizeFn (initial : Cache K W S) (ops ++ [.update cfg])
    s'.policy ≠ .off → s'.items ≠ s.items →
      ∃ a ∈ s.items, a ∉ s'.items ∧ ∃ m, s'.maxMem = some m ∧ m ≤ a.size + total s'.items := by
  intro s s' hoff hne
  have hacc := run_acc (S := S) key sizeFn ops
  simp only [s', s, run_snoc, step] at *
  generalize run key sizeFn (initial : Cache K W S) ops = s at *
  have h := update_cases cfg s hacc
  generalize update cfg s = r at *
  cases h with
  | same e s' hi => exact absurd hi hne
  | off s' hp => exact absurd hp hoff
  | evict s' _ m hm _ ev kept he ho hi =>
    simp only at *
    rw [hi] at hne ⊢
    rcases List.eq_nil_or_concat ev with rfl | ⟨e1, a, rfl⟩
    · exact absurd (he.sub.eq_of_length (by simpa using he.perm.length_eq.symm)) hne
    · have hn := he.need e1 a [] (by simp)
      refine ⟨a, he.perm.mem_iff.2 (by simp), ?_, m, hm, by simpa using hn⟩
      intro hak
      have hnd := (he.perm.map (·.key)).nodup_iff.1 hacc.1
      rw [List.map_append, List.nodup_append] at hnd
      exact hnd.2.2 a.key (by simp) a.key (List.mem_map_of_mem (f := (·.key)) hak) rfl

omit [LinearOrder K] in
theorem total_filter_add (l : List (Item K W S)) (p : Item K W S → Bool) :
    total l = total (l.filter p) + total (l.filter (fun x => !p x)) := by
  induction l with
  | nil => simp
  | cons a l ih => cases h : p a <;> simp [h, ih] <;> omega

/-- The matrices held other than the one for key `k`. -/
def others (k : K) (s : Cache K W S) : List (Item K W S) := s.items.filter (fun it => decide (it.key ≠ k))

/-- C07: a lookup that drops held matrices was forced to: for one of the dropped matrices, keeping it beside the
other matrices that are kept would leave too little room for the requested weights — by their estimated size,
which then fits the cache as a whole, or by their actual size. In particular weights estimated larger than the whole
cache cause no eviction for their estimate. -/
theorem C07_get_evicts_only_if_needed (key : Q → K) (sizeFn : W → Nat) (ops : List (Op Q W S)) (src : Source Q W S)
    (q : Q) :
    let s := run key sizeFn (initial : Cache K W S) ops
    let s' := run key sizeFn (initial : Cache K W S) (ops ++ [.get src q])
    (∃ a ∈ s.items, a ∉ s'.items) →
      ∃ a ∈ s.items, a ∉ s'.items ∧ ∃ m, s.maxMem = some m ∧
        ((∃ e, src.findEntry q = .ok (some e) ∧ estimate e ≤ m ∧
            m ≤ a.size + total (others (key q) s') + estimate e) ∨
          (∃ w sh, src.create q = .ok (some w, sh) ∧ m ≤ a.size + total (others (key q) s') + sizeFn w)) := by
  intro s s' hex
  have hacc := run_acc (S := S) key sizeFn ops
  simp only [s', s, run_snoc, step] at *
  generalize run key sizeFn (initial : Cache K W S) ops = s at *
  have h := get_cases key sizeFn src q s hacc
  generalize (get key sizeFn src q s).1 = o at h
  generalize (get key sizeFn src q s).2 = s' at h hex ⊢
  obtain ⟨x, hx, hx'⟩ := hex
  have hoth : ∀ (s' : Cache K W S), s'.items.Sublist s.items → ¬ Holds s (key q) → others (key q) s' = s'.items := by
    intro s' hsub hm
    unfold others
    rw [List.filter_eq_self]
    intro a ha
    have : a.key ≠ key q := fun e => hm ⟨a, hsub.subset ha, e⟩
    simpa using this
  -- the estimate round
  have round1 : ∀ (s1 : Cache K W S) (ev kept : List (Item K W S)), EvOrder s.policy s.items ev kept →
      PreNeed src q s ev kept → ¬ Holds s (key q) → total (others (key q) s1) = total kept →
      (∀ a ∈ s1.items, a ∈ s.items → a ∈ kept) → ev ≠ [] →
      ∃ a ∈ s.items, a ∉ s1.items ∧ ∃ m, s.maxMem = some m ∧
        ((∃ e, src.findEntry q = .ok (some e) ∧ estimate e ≤ m ∧
            m ≤ a.size + total (others (key q) s1) + estimate e) ∨
          (∃ w sh, src.create q = .ok (some w, sh) ∧ m ≤ a.size + total (others (key q) s1) + sizeFn w)) := by
    intro s1 ev kept ho hn hm ht hsub hne
    rcases List.eq_nil_or_concat ev with rfl | ⟨e1, a, rfl⟩
    · exact absurd rfl hne
    · obtain ⟨m, e, h1, h2, h3, h4, h5⟩ := hn e1 a [] (by simp)
      have ha : a ∈ s.items := ho.perm.mem_iff.2 (by simp)
      refine ⟨a, ha, ?_, m, h1, Or.inl ⟨e, h2, h3, ?_⟩⟩
      · intro hak
        have hak := hsub a hak ha
        have hnd := (ho.perm.map (·.key)).nodup_iff.1 hacc.1
        rw [List.map_append, List.nodup_append] at hnd
        exact hnd.2.2 a.key (by simp) a.key (List.mem_map_of_mem (f := (·.key)) hak) rfl
      · rw [ht]; simp at h5; omega
  cases h with
  | off => exact absurd hx hx'
  | hit _ l1 it l2 hi _ => rw [hi] at hx; exfalso; apply hx'; simp at hx ⊢; grind
  | unlErr => exact absurd hx hx'
  | unlNone => exact absurd hx hx'
  | unlSome => exfalso; apply hx'; simp [hx]
  | limErr _ hm ev kept ho hn =>
    refine round1 _ ev kept ho hn hm (by rw [hoth _ ho.sub hm]) (fun a ha _ => ha) ?_
    rintro rfl
    exact hx' (by simpa using ho.perm.mem_iff.1 hx)
  | limNone _ hm ev kept ho hn =>
    refine round1 _ ev kept ho hn hm (by rw [hoth _ ho.sub hm]) (fun a ha _ => ha) ?_
    rintro rfl
    exact hx' (by simpa using ho.perm.mem_iff.1 hx)
  | limSome _ hm ev kept ho hn w sh hc m hmm hpos ev2 kept2 ho2 he2 =>
    have hnd2 := nodup_snoc (nodup_sub ho.sub hacc.1) (⟨key q, (some w, sh), sizeFn w⟩ : Item K W S)
      (fun x hx e => hm ⟨x, ho.sub.subset hx, e⟩)
    have hkeptk : ∀ z ∈ kept, z.key ≠ key q := fun z hz e => hm ⟨z, ho.sub.subset hz, e⟩
    by_cases hold : ∃ z ∈ ev2, z.key ≠ key q
    · -- the last old matrix dropped in the second round
      obtain ⟨e1, a, e2, rfl, hak, hlast⟩ :
          ∃ e1 a e2, ev2 = e1 ++ a :: e2 ∧ a.key ≠ key q ∧ ∀ z ∈ e2, z.key = key q := by
        clear round1 hoth ho2 he2
        induction ev2 with
        | nil => obtain ⟨z, hz, _⟩ := hold; cases hz
        | cons b ev2 ih =>
          by_cases hr : ∃ z ∈ ev2, z.key ≠ key q
          · obtain ⟨e1, a, e2, rfl, h1, h2⟩ := ih hr
            exact ⟨b :: e1, a, e2, rfl, h1, h2⟩
          · obtain ⟨z, hz, hzk⟩ := hold
            rcases List.mem_cons.1 hz with rfl | hz
            · refine ⟨[], z, ev2, rfl, hzk, ?_⟩
              intro y hy
              by_contra hne
              exact hr ⟨y, hy, hne⟩
            · exact absurd ⟨z, hz, hzk⟩ hr
      have hamem : a ∈ kept ++ [(⟨key q, (some w, sh), sizeFn w⟩ : Item K W S)] := he2.perm.mem_iff.2 (by simp)
      have hakept : a ∈ kept := by
        simp at hamem
        rcases hamem with h | h
        · exact h
        · exact absurd (by rw [h]) hak
      have hnd3 := (he2.perm.map (·.key)).nodup_iff.1 hnd2
      refine ⟨a, ho.sub.subset hakept, ?_, m, hmm, Or.inr ⟨w, sh, hc, ?_⟩⟩
      · intro ha2
        rw [List.map_append, List.nodup_append] at hnd3
        exact hnd3.2.2 a.key (by simp) a.key (List.mem_map_of_mem (f := (·.key)) ha2) rfl
      · have hneed := he2.need e1 a e2 rfl
        -- matrices for key q among e2 ++ kept2: at most the new one
        have hsplit := total_filter_add (e2 ++ kept2) (fun it => decide (it.key ≠ key q))
        have he2nil : e2.filter (fun it => decide (it.key ≠ key q)) = [] := by
          rw [List.filter_eq_nil_iff]
          intro z hz
          simp [hlast z hz]
        have hnew : total ((e2 ++ kept2).filter (fun x => !decide (x.key ≠ key q))) ≤ sizeFn w := by
          have hsubset : ∀ z ∈ (e2 ++ kept2).filter (fun x => !decide (x.key ≠ key q)),
              z = (⟨key q, (some w, sh), sizeFn w⟩ : Item K W S) := by
            intro z hz
            simp only [List.mem_filter, List.mem_append] at hz
            have hzm : z ∈ kept ++ [(⟨key q, (some w, sh), sizeFn w⟩ : Item K W S)] :=
              he2.perm.mem_iff.2 (by simp only [List.mem_append, List.mem_cons]; grind)
            simp at hzm
            rcases hzm with h | h
            · have := hkeptk z h
              simp at hz
              exact absurd hz.2 this
            · exact h
          have hndf : ((e2 ++ kept2).filter (fun x => !decide (x.key ≠ key q))).Nodup := by
            refine List.Sublist.nodup List.filter_sublist ?_
            refine List.Nodup.of_map (·.key) ?_
            refine List.Sublist.nodup ?_ hnd3
            refine List.Sublist.map _ ?_
            rw [List.append_assoc]
            exact List.Sublist.trans (by simp) (List.sublist_append_right e1 _)
          generalize (e2 ++ kept2).filter (fun x => !decide (x.key ≠ key q)) = fl at *
          match fl, hsubset, hndf with
          | [], _, _ => simp
          | [z], hs, _ => rw [hs z (by simp)]; simp
          | z1 :: z2 :: rest, hs, hn =>
            exfalso
            have h1 := hs z1 (by simp)
            have h2 := hs z2 (by simp)
            simp at hn
            exact hn.1.1 (h1.trans h2.symm)
        rw [List.filter_append, he2nil, List.nil_append] at hsplit
        simp only [others]
        rw [total_append] at hsplit
        omega
    · -- nothing old dropped in the second round
      have hev : ev ≠ [] := by
        rintro rfl
        have hxk : x ∈ kept := by simpa using ho.perm.mem_iff.1 hx
        have : x ∈ ev2 ++ kept2 := he2.perm.mem_iff.1 (by simp [hxk])
        rcases List.mem_append.1 this with h | h
        · exact hold ⟨x, h, hkeptk x hxk⟩
        · exact hx' h
      refine round1 _ ev kept ho hn hm ?_ ?_ hev
      · simp only [others]
        have hp := (he2.perm.filter (fun it => decide (it.key ≠ key q)))
        rw [List.filter_append, List.filter_append] at hp
        have h1 : ev2.filter (fun it => decide (it.key ≠ key q)) = [] := by
          rw [List.filter_eq_nil_iff]
          intro z hz hzk
          simp at hzk
          exact hold ⟨z, hz, hzk⟩
        have h2 : kept.filter (fun it => decide (it.key ≠ key q)) = kept := by
          rw [List.filter_eq_self]
          intro z hz
          simpa using hkeptk z hz
        rw [h1, h2] at hp
        simp at hp
        simpa using (total_perm hp).symm
      · intro a ha has
        have := ho2.sub.subset ha
        simp at this
        rcases this with h | h
        · exact h
        · exact absurd ⟨a, has, by rw [h]⟩ hm
  | limBad => exfalso; apply hx'; simp [hx]

-- something is dropped: 5 (largest) makes room for 4
example : (⟨5, (some 5, some ()), 5⟩ : Item Nat Nat Unit) ∈ (Demo.after [Demo.largest 10, Demo.g 5, Demo.g 2]).items ∧
    (⟨5, (some 5, some ()), 5⟩ : Item Nat Nat Unit) ∉
      (Demo.after ([Demo.largest 10, Demo.g 5, Demo.g 2] ++ [.get Demo.src 4])).items := by decide +kernel

/-! ### C08 -/

/-- Full statement of C08 for a policy, an estimate and an actual size relation: in every reachable state with valid
configuration and strict mode off, loading oversized weights returns them and leaves the held matrices in place. -/
def C08_Statement (p : Policy) (exactMax : Bool) : Prop :=
  ∀ (ops : List (Op Nat Nat Unit)) (src : Source Nat Nat Unit) (q : Nat) (e : Entry) (w : Nat) (sh : Option Unit) (m : Int),
    OpsValid ops →
    let s := run id id (initial : Cache Nat Nat Unit) ops
    s.policy = p → s.strict = false → ¬ Holds s q → s.maxMem = some m →
    src.findEntry q = .ok (some e) → src.create q = .ok (some w, sh) → estimate e = w →
    (if exactMax then m = w else m < w) →
    (get id id src q s).1.res = .ok (some w, sh) ∧ (get id id src q s).2.items = s.items

/-- C08 (partial: policy `largest`, and an estimate that is above the limit or leaves enough room): oversized weights are
returned, not kept, and leave the held matrices in place. Missing: policy `lru` and estimates up to the limit for which room has to
be made (both refuted below; `C08_largest_exact` and `C08_lru_flushed` say what happens then). -/
theorem C08_oversized_leaves_cache_partial (key : Q → K) (sizeFn : W → Nat) (ops : List (Op Q W S)) (hv : OpsValid ops)
    (src : Source Q W S) (q : Q) (e : Entry) (w : W) (sh : Option S) (m : Int)
    (hp : (run key sizeFn (initial : Cache K W S) ops).policy = .largest)
    (hst : (run key sizeFn (initial : Cache K W S) ops).strict = false)
    (hm : ¬ Holds (run key sizeFn (initial : Cache K W S) ops) (key q))
    (hmax : (run key sizeFn (initial : Cache K W S) ops).maxMem = some m)
    (hf : src.findEntry q = .ok (some e)) (hc : src.create q = .ok (some w, sh))
    (hest : m < estimate e ∨ estimate e + total (run key sizeFn (initial : Cache K W S) ops).items ≤ m) (hsz : m ≤ sizeFn w) :
    (get key sizeFn src q (run key sizeFn (initial : Cache K W S) ops)).1.res = .ok (some w, sh) ∧
    (get key sizeFn src q (run key sizeFn (initial : Cache K W S) ops)).2.items =
      (run key sizeFn (initial : Cache K W S) ops).items := by
  have hacc := run_acc (S := S) key sizeFn ops
  have hb := C01_currsize_below_limit (S := S) key sizeFn ops hv (Or.inr hp)
  generalize run key sizeFn (initial : Cache K W S) ops = s at *
  obtain ⟨m', h1, h2, _, h3⟩ := hb
  simp only [info] at h1 h3
  rw [hmax] at h1; cases h1
  rw [hacc.2] at h3
  have h := get_cases key sizeFn src q s hacc
  generalize (get key sizeFn src q s).1 = o at h
  generalize (get key sizeFn src q s).2 = s' at h
  cases h with
  | off h => rw [hp] at h; cases h
  | hit _ l1 it l2 hi hk => exact absurd ⟨it, by rw [hi]; simp, hk⟩ hm
  | unlErr h => rw [hp] at h; cases h
  | unlNone h => rw [hp] at h; cases h
  | unlSome h => rw [hp] at h; cases h
  | limErr _ _ ev kept ho hn e' c hcase =>
    rcases hcase with h | ⟨_, en, _, h | h⟩
    · rw [hc] at h; cases h.1
    · rw [hst] at h; cases h.2.1
    · exact absurd ⟨m, hmax, h2⟩ h.1
  | limNone _ _ _ _ _ _ _ h => rw [hc] at h; simp at h
  | limSome _ _ ev kept ho hn w' sh' hc' m' hmm hpos ev2 kept2 ho2 he2 =>
    rw [hc] at hc'
    simp at hc'
    obtain ⟨rfl, rfl⟩ := hc'
    rw [hmax] at hmm; cases hmm
    refine ⟨rfl, ?_⟩
    -- no eviction for the estimate
    have hev : ev = [] := by
      cases ev with
      | nil => rfl
      | cons a ev =>
        obtain ⟨m', e', g1, g2, g3, _⟩ := hn [] a ev rfl
        rw [hmax] at g1; cases g1
        rw [hf] at g2; cases g2
        omega
    subst hev
    have hkept : kept = s.items := ho.sub.eq_of_length (by simpa using ho.perm.length_eq.symm)
    subst hkept
    -- the first eviction after loading is the new one, and it suffices
    have hnewkept : (⟨key q, (some w, sh), sizeFn w⟩ : Item K W S) ∉ kept2 := by
      intro hin
      rcases he2.done with h | h
      · rw [h] at hin; cases hin
      · obtain ⟨l1, l2, rfl⟩ := List.append_of_mem hin
        have := total_nonneg l1
        have := total_nonneg l2
        simp at h; omega
    have hnewev : (⟨key q, (some w, sh), sizeFn w⟩ : Item K W S) ∈ ev2 := by
      have : (⟨key q, (some w, sh), sizeFn w⟩ : Item K W S) ∈ ev2 ++ kept2 := he2.perm.mem_iff.1 (by simp)
      rcases List.mem_append.1 this with h | h
      · exact h
      · exact absurd h hnewkept
    have hall : ev2 = [(⟨key q, (some w, sh), sizeFn w⟩ : Item K W S)] := by
      have ht := total_perm he2.perm
      -- every eviction step needs m; after the new one is gone the rest is below m
      rcases List.eq_nil_or_concat ev2 with rfl | ⟨e1, a, rfl⟩
      · cases hnewev
      · by_cases ha : a = (⟨key q, (some w, sh), sizeFn w⟩ : Item K W S)
        · subst ha
          -- anything evicted earlier must be at least as large, impossible
          cases e1 with
          | nil => rfl
          | cons b e1 =>
            exfalso
            have hsz2 := ho2.largest hp [] b (e1 ++ [⟨key q, (some w, sh), sizeFn w⟩]) (by simp)
              ⟨key q, (some w, sh), sizeFn w⟩ (by simp)
            have hbm : b ∈ s.items ++ [(⟨key q, (some w, sh), sizeFn w⟩ : Item K W S)] := he2.perm.mem_iff.2 (by simp)
            have hbne : b ≠ (⟨key q, (some w, sh), sizeFn w⟩ : Item K W S) := by
              rintro rfl
              have hnd := (he2.perm.map (·.key)).nodup_iff.1
                (nodup_snoc hacc.1 _ (fun x hx e => hm ⟨x, hx, e⟩))
              simp at hnd
            simp [hbne] at hbm
            obtain ⟨l1, l2, hl⟩ := List.append_of_mem hbm
            have := total_nonneg l1
            have := total_nonneg l2
            rw [hl] at h3
            simp at h3 hsz2; omega
        · exfalso
          have hneed := he2.need e1 a [] (by simp)
          simp only [total_nil] at hneed
          have hin : (⟨key q, (some w, sh), sizeFn w⟩ : Item K W S) ∈ e1 := by
            simp at hnewev
            rcases hnewev with h | h
            · exact h
            · exact absurd h.symm ha
          obtain ⟨l1, l2, hl⟩ := List.append_of_mem hin
          have := total_nonneg l1
          have := total_nonneg l2
          rw [hl] at ht
          simp at ht; omega
    subst hall
    have hperm : s.items.Perm kept2 := by
      have h := he2.perm
      have h2 : (s.items ++ [(⟨key q, (some w, sh), sizeFn w⟩ : Item K W S)]).Perm
          ((⟨key q, (some w, sh), sizeFn w⟩ : Item K W S) :: s.items) := List.perm_append_singleton _ _
      exact (List.perm_cons _).1 (h2.symm.trans h)
    have hsub2 : kept2.Sublist s.items := by
      have h := he2.sub
      obtain ⟨a1, a2, rfl, ha1, ha2⟩ := List.sublist_append_iff.1 h
      have : a2 = [] := by
        cases a2 with
        | nil => rfl
        | cons z zs =>
          have hz := ha2.subset (List.mem_cons_self)
          simp at hz
          exact absurd (by rw [← hz]; simp) hnewkept
      subst this
      simpa using ha1
    exact hsub2.eq_of_length hperm.length_eq.symm
  | limBad _ _ _ _ _ hbad => exact absurd ⟨m, hmax, h2⟩ hbad

example : Demo.keys (Demo.after [Demo.largest 10, Demo.g 5, Demo.g 4]) = [5, 4] ∧
    Demo.keys (Demo.after [Demo.largest 10, Demo.g 5, Demo.g 4, Demo.g 11]) = [5, 4] := by decide +kernel

theorem valid_demo_lru (m : Int) (h : 0 < m) (qs : List Nat) : OpsValid (Demo.lru m :: qs.map Demo.g) := by
  intro cfg hc
  simp [Demo.lru, Demo.g] at hc
  subst hc
  exact ⟨some m, .lru, rfl, rfl, fun _ => ⟨m, rfl, h⟩⟩

theorem valid_demo_largest (m : Int) (h : 0 < m) (qs : List Nat) : OpsValid (Demo.largest m :: qs.map Demo.g) := by
  intro cfg hc
  simp [Demo.largest, Demo.g] at hc
  subst hc
  exact ⟨some m, .largest, rfl, rfl, fun _ => ⟨m, rfl, h⟩⟩

/-- C08 is false of the code under `lru`: weights larger than the limit first push out everything that is held. -/
theorem C08_lru_refuted : ¬ C08_Statement .lru false := by
  intro h
  have := h [Demo.lru 10, Demo.g 5, Demo.g 4] Demo.src 11 ⟨some 11, 11⟩ 11 (some ()) 10
    (valid_demo_lru 10 (by decide) [5, 4]) (by decide +kernel) (by decide +kernel)
    (by rw [← find_none_iff]; decide +kernel) (by decide +kernel) rfl rfl (by decide) (by decide)
  exact absurd this.2 (by decide +kernel)

/-- C08 is false of the code under `largest` too when the estimate equals the limit: room is made for weights that
are then dropped. -/
theorem C08_exact_limit_refuted : ¬ C08_Statement .largest true := by
  intro h
  have := h [Demo.largest 10, Demo.g 5, Demo.g 4] Demo.src 10 ⟨some 10, 10⟩ 10 (some ()) 10
    (valid_demo_largest 10 (by decide) [5, 4]) (by decide +kernel) (by decide +kernel)
    (by rw [← find_none_iff]; decide +kernel) (by decide +kernel) rfl rfl (by decide) (by decide)
  exact absurd this.2 (by decide +kernel)

/-! ### C09 -/

/-- C09: in strict mode under a limited policy, a missing request whose estimate exceeds the limit is refused:
the lookup raises, nothing is loaded, and the cache is exactly as before. -/
theorem C09_strict_refuses_oversized (key : Q → K) (sizeFn : W → Nat) (ops : List (Op Q W S))
    (src : Source Q W S) (q : Q) (e : Entry) (m : Int)
    (hp : Limited (run key sizeFn (initial : Cache K W S) ops).policy)
    (hst : (run key sizeFn (initial : Cache K W S) ops).strict = true)
    (hm : ¬ Holds (run key sizeFn (initial : Cache K W S) ops) (key q))
    (hmax : (run key sizeFn (initial : Cache K W S) ops).maxMem = some m)
    (hf : src.findEntry q = .ok (some e)) (hest : m < estimate e) :
    get key sizeFn src q (run key sizeFn (initial : Cache K W S) ops) =
      (⟨.error .tooLarge, [.find q]⟩, run key sizeFn (initial : Cache K W S) ops) := by
  have hacc := run_acc (S := S) key sizeFn ops
  generalize run key sizeFn (initial : Cache K W S) ops = s at *
  have h0 : 0 ≤ s.currMem := by rw [hacc.2]; exact total_nonneg _
  have hc : s.policy.hasCache = true := by rcases hp with h | h <;> rw [h] <;> rfl
  have hl : s.policy.hasLimit = true := by rcases hp with h | h <;> rw [h] <;> rfl
  have hfind := (find_none_iff s (key q)).2 hm
  have hpre : createWithPreCheck src q s = (⟨.error .tooLarge, [.find q]⟩, s) := by
    unfold createWithPreCheck
    rw [hf]
    simp only [hmax]
    rw [if_neg (by omega)]
    simp only
    rw [if_pos ⟨hst, by omega⟩]
  simp only [get, hc, if_true, hfind, hl, hpre]

/-- C09: a request whose estimate is within the limit is never refused: what the lookup calls and answers is what the
uncached lookup calls and answers. -/
theorem C09_fitting_never_refused (key : Q → K) (sizeFn : W → Nat) (ops : List (Op Q W S)) (hv : OpsValid ops)
    (src : Source Q W S) (q : Q) (m : Int)
    (hp : Limited (run key sizeFn (initial : Cache K W S) ops).policy)
    (hm : ¬ Holds (run key sizeFn (initial : Cache K W S) ops) (key q))
    (hmax : (run key sizeFn (initial : Cache K W S) ops).maxMem = some m)
    (hest : ∀ e, src.findEntry q = .ok (some e) → estimate e ≤ m) :
    (get key sizeFn src q (run key sizeFn (initial : Cache K W S) ops)).1 = ⟨src.create q, src.createCalls q⟩ := by
  obtain ⟨m', h1, h2, h0, h3⟩ := C01_currsize_below_limit (S := S) key sizeFn ops hv hp
  have hacc := run_acc (S := S) key sizeFn ops
  generalize run key sizeFn (initial : Cache K W S) ops = s at *
  simp only [info] at h1 h3 h0
  rw [hmax] at h1; cases h1
  rw [hacc.2] at h3 h0
  have h := get_cases key sizeFn src q s hacc
  generalize (get key sizeFn src q s).1 = o at h
  generalize (get key sizeFn src q s).2 = s' at h
  cases h with
  | off h => simp [Limited, h] at hp
  | hit _ l1 it l2 hi hk => exact absurd ⟨it, by rw [hi]; simp, hk⟩ hm
  | unlErr h => simp [Limited, h] at hp
  | unlNone h => simp [Limited, h] at hp
  | unlSome h => simp [Limited, h] at hp
  | limErr _ _ ev kept ho hn e' c hcase =>
    rcases hcase with ⟨h, rfl⟩ | ⟨_, en, hen, ⟨_, _, mm, g1, g2, g3⟩ | h⟩
    · rw [h]
    · rw [hmax] at g1; cases g1
      have hle := hest en hen
      have := total_le_of_perm ho.perm
      have hk := g3 hle (by omega)
      rw [hk] at g2
      simp at g2; omega
    · exact absurd ⟨m, hmax, h2⟩ h.1
  | limNone _ _ _ _ _ _ _ h => rw [h]
  | limSome _ _ _ _ _ _ _ _ h => rw [h]
  | limBad _ _ _ _ _ hbad => exact absurd ⟨m, hmax, h2⟩ hbad

example : OpsValid [Demo.strict 10, Demo.g 5, Demo.g 4] ∧
    Limited (Demo.after [Demo.strict 10, Demo.g 5, Demo.g 4]).policy ∧
    (Demo.after [Demo.strict 10, Demo.g 5, Demo.g 4]).strict = true ∧
    ¬ Holds (Demo.after [Demo.strict 10, Demo.g 5, Demo.g 4]) 11 := by
  refine ⟨?_, Or.inr (by decide +kernel), by decide +kernel, by rw [← find_none_iff]; decide +kernel⟩
  intro cfg hc
  simp [Demo.strict, Demo.g] at hc
  subst hc
  exact ⟨some 10, .largest, rfl, rfl, fun _ => ⟨10, rfl, by decide⟩⟩
-- 9 fits (after evicting), 11 does not
example : (get id id Demo.src 9 (Demo.after [Demo.strict 10, Demo.g 5, Demo.g 4])).1.res = .ok (some 9, some ()) := by
  decide +kernel
example : (get id id Demo.src 11 (Demo.after [Demo.strict 10, Demo.g 5, Demo.g 4])).1.res = .error .tooLarge := by
  decide +kernel

/-- `C09_strict_refuses_oversized` for 11. -/
example : get id id Demo.src 11 (Demo.after [Demo.strict 10, Demo.g 5, Demo.g 4]) =
    (⟨.error .tooLarge, [.find 11]⟩, Demo.after [Demo.strict 10, Demo.g 5, Demo.g 4]) :=
  C09_strict_refuses_oversized id id [Demo.strict 10, Demo.g 5, Demo.g 4] Demo.src 11 ⟨some 11, 11⟩ 10 (Or.inr (by decide +kernel)) (by decide +kernel)
    (by rw [← find_none_iff]; decide +kernel) (by decide +kernel) rfl (by decide)

/-! ### C10 -/

/-- C10: in every reachable state with policy off nothing is held and all counters are 0, and a lookup is exactly the
uncached lookup and leaves the cache as it is. -/
theorem C10_off_keeps_nothing (key : Q → K) (sizeFn : W → Nat) (ops : List (Op Q W S))
    (hp : (info (run key sizeFn (initial : Cache K W S) ops)).policy = .off) :
    let s := run key sizeFn (initial : Cache K W S) ops
    (info s).hits = 0 ∧ (info s).misses = 0 ∧ (info s).currsize = 0 ∧ (info s).count = 0 ∧ s.items = [] ∧
      ∀ (src : Source Q W S) (q : Q), get key sizeFn src q s = (⟨src.create q, src.createCalls q⟩, s) := by
  have hoe := run_offEmpty (S := S) key sizeFn ops
  have hacc := run_acc (S := S) key sizeFn ops
  generalize run key sizeFn (initial : Cache K W S) ops = s at *
  obtain ⟨h1, h2, h3⟩ := hoe hp
  refine ⟨h2, h3, ?_, ?_, h1, ?_⟩
  · simp [info, hacc.2, h1]
  · simp [info, h1]
  · intro src q
    have : s.policy = .off := hp
    simp [get, this, Policy.hasCache]

example : (info (Demo.after [Demo.lru 10, Demo.g 5, Demo.g 4, Demo.g 5, Demo.off, Demo.g 4])).policy = .off := by
  decide +kernel

/-! ### C11 -/

/-- C11: under policy unlimited a lookup drops nothing. -/
theorem C11_unlimited_never_evicts (key : Q → K) (sizeFn : W → Nat) (ops : List (Op Q W S)) (src : Source Q W S) (q : Q)
    (hp : (run key sizeFn (initial : Cache K W S) ops).policy = .unlimited) (k : K)
    (hk : Holds (run key sizeFn (initial : Cache K W S) ops) k) :
    Holds (run key sizeFn (initial : Cache K W S) (ops ++ [.get src q])) k ∧
    (run key sizeFn (initial : Cache K W S) (ops ++ [.get src q])).policy = .unlimited := by
  have hacc := run_acc (S := S) key sizeFn ops
  rw [run_snoc]
  generalize run key sizeFn (initial : Cache K W S) ops = s at *
  refine ⟨?_, by simp only [step]; rw [(get_policy key sizeFn src q s hacc).1]; exact hp⟩
  simp only [step]
  have h := get_cases key sizeFn src q s hacc
  generalize (get key sizeFn src q s).1 = o at h
  generalize (get key sizeFn src q s).2 = s' at h
  obtain ⟨x, hx, rfl⟩ := hk
  refine ⟨x, ?_, rfl⟩
  cases h with
  | off => exact hx
  | hit _ l1 it l2 hi hk => rw [hi] at hx; simp at hx ⊢; grind
  | unlErr => exact hx
  | unlNone => exact hx
  | unlSome => simp [hx]
  | limErr h => simp [Limited, hp] at h
  | limNone h => simp [Limited, hp] at h
  | limSome h => simp [Limited, hp] at h
  | limBad h => simp [Limited, hp] at h

/-- C11: under policy unlimited, once a request was served with weights it is not loaded again by any later lookup,
whatever other lookups happen in between. -/
theorem C11_unlimited_loads_once (key : Q → K) (sizeFn : W → Nat) (ops : List (Op Q W S)) (src : Source Q W S) (q : Q)
    (w : W) (sh : Option S)
    (hp : (run key sizeFn (initial : Cache K W S) ops).policy = .unlimited)
    (hok : (get key sizeFn src q (run key sizeFn (initial : Cache K W S) ops)).1.res = .ok (some w, sh))
    (gets : List (Source Q W S × Q)) (src' : Source Q W S) :
    (get key sizeFn src' q (run key sizeFn (initial : Cache K W S)
      (ops ++ [.get src q] ++ gets.map (fun p => .get p.1 p.2)))).1.calls = [] := by
  -- held right after the first lookup
  have h0 : Holds (run key sizeFn (initial : Cache K W S) (ops ++ [.get src q])) (key q) ∧
      (run key sizeFn (initial : Cache K W S) (ops ++ [.get src q])).policy = .unlimited := by
    have hacc := run_acc (S := S) key sizeFn ops
    rw [run_snoc]
    simp only [step]
    generalize run key sizeFn (initial : Cache K W S) ops = s at *
    refine ⟨?_, by rw [(get_policy key sizeFn src q s hacc).1]; exact hp⟩
    have h := get_cases key sizeFn src q s hacc
    generalize (get key sizeFn src q s).1 = o at h hok
    generalize (get key sizeFn src q s).2 = s' at h
    cases h with
    | off h => rw [hp] at h; cases h
    | hit _ l1 it l2 hi hk => exact ⟨it, by simp, hk⟩
    | unlErr => cases hok
    | unlNone => simp at hok
    | unlSome => exact ⟨_, List.mem_append_right _ (List.mem_singleton.2 rfl), rfl⟩
    | limErr h => simp [Limited, hp] at h
    | limNone h => simp [Limited, hp] at h
    | limSome h => simp [Limited, hp] at h
    | limBad h => simp [Limited, hp] at h
  -- kept by the lookups in between
  have h1 : ∀ gets : List (Source Q W S × Q),
      Holds (run key sizeFn (initial : Cache K W S) (ops ++ [.get src q] ++ gets.map (fun p => .get p.1 p.2))) (key q) ∧
      (run key sizeFn (initial : Cache K W S) (ops ++ [.get src q] ++ gets.map (fun p => .get p.1 p.2))).policy
        = .unlimited := by
    intro gets
    induction gets using List.reverseRecOn with
    | nil => simpa using h0
    | append_singleton gets p ih =>
      rw [List.map_append, ← List.append_assoc]
      exact C11_unlimited_never_evicts key sizeFn _ p.1 p.2 ih.2 _ ih.1
  have h := h1 gets
  have := C04_held_is_hit (S := S) key sizeFn (ops ++ [.get src q] ++ gets.map (fun p => .get p.1 p.2)) src' q
    (by rw [h.2]; simp) h.1
  exact this.1

example : (Demo.after [Demo.unlimited, Demo.g 4]).policy = .unlimited ∧
    (get id id Demo.src 5 (Demo.after [Demo.unlimited, Demo.g 4])).1.res = .ok (some 5, some ()) := ⟨by decide +kernel, rfl⟩
example : Demo.keys (Demo.after [Demo.unlimited, Demo.g 400, Demo.g 500, Demo.g 600]) = [400, 500, 600] := by
  decide +kernel

/-- `C11_unlimited_never_evicts`: 400 stays when 500 comes. -/
example : Holds (run id id initial ([Demo.unlimited, Demo.g 400] ++ [.get Demo.src 500])) 400 :=
  (C11_unlimited_never_evicts id id [Demo.unlimited, Demo.g 400] Demo.src 500 (by decide +kernel) 400
    ⟨⟨400, (some 400, some ()), 400⟩, by decide +kernel, rfl⟩).1

/-! ### C12 -/

/-- C12: after a clear all counters and sizes are 0, limit and policy are as before, and (caching on) the next lookup
of any request asks the inventory. -/
theorem C12_clear_empties (key : Q → K) (sizeFn : W → Nat) (ops : List (Op Q W S)) :
    let s := run key sizeFn (initial : Cache K W S) ops
    let s' := run key sizeFn (initial : Cache K W S) (ops ++ [.clear])
    info s' = ⟨0, 0, (info s).maxsize, 0, 0, (info s).policy⟩ ∧
      ∀ (src : Source Q W S) (q : Q), .find q ∈ (get key sizeFn src q s').1.calls := by
  intro s s'
  have hacc := run_acc (S := S) key sizeFn (ops ++ [.clear])
  have hs' : s' = clear s := by simp only [s', s, run_snoc, step]
  refine ⟨by rw [hs']; rfl, ?_⟩
  intro src q
  have hem : ¬ Holds s' (key q) := by
    rw [hs']; rintro ⟨x, hx, _⟩; simp [clear] at hx
  have h := get_cases key sizeFn src q s' hacc
  generalize (get key sizeFn src q s').1 = o at h
  generalize (get key sizeFn src q s').2 = s'' at h
  have hcalls : .find q ∈ src.createCalls q := by
    unfold Source.createCalls; cases src.findEntry q <;> simp
  cases h with
  | off => exact hcalls
  | hit _ l1 it l2 hi hk => exact absurd ⟨it, by rw [hi]; simp, hk⟩ hem
  | unlErr => exact hcalls
  | unlNone => exact hcalls
  | unlSome => exact hcalls
  | limErr _ _ _ _ _ _ _ _ hc =>
    rcases hc with ⟨_, rfl⟩ | ⟨rfl, _⟩
    · exact hcalls
    · simp
  | limNone => exact hcalls
  | limSome => exact hcalls
  | limBad => exact hcalls

example : info (Demo.after [Demo.lru 10, Demo.g 5, Demo.g 4, .clear]) = ⟨0, 0, some 10, 0, 0, .lru⟩ := by
  decide +kernel

/-! ### C14 -/

/-- Full statement of C14: lookups in several inventories, made in any order, give each inventory's own weights. -/
def C14_Statement : Prop :=
  ∀ (ops : List (Op Nat Nat Unit)) (src : Source Nat Nat Unit) (q : Nat) (d : Option Nat × Option Unit),
    OpsValid ops →
    (get id id src q (run id id (initial : Cache Nat Nat Unit) ops)).1.res = .ok d → src.create q = .ok d

/-- C14 is false of the code: the key is made of the request only, so the second inventory gets the weights of the
first. -/
theorem C14_refuted : ¬ C14_Statement := by
  intro h
  have := h [Demo.largest 10, Demo.g 4] Demo.other 4 (some 4, some ()) (valid_demo_largest 10 (by decide) [4])
    (by decide +kernel)
  exact absurd this (by decide +kernel)

/-- C14 (partial): it holds as long as the caching policy is off, and (C03) as long as a single inventory is used.
Missing: several inventories with caching on, refuted above. -/
theorem C14_isolated_when_off_partial (key : Q → K) (sizeFn : W → Nat) (ops : List (Op Q W S)) (src : Source Q W S)
    (q : Q) (hp : (run key sizeFn (initial : Cache K W S) ops).policy = .off) :
    (get key sizeFn src q (run key sizeFn (initial : Cache K W S) ops)).1.res = src.create q := by
  have := (C10_off_keeps_nothing (S := S) key sizeFn ops hp).2.2.2.2.2 src q
  rw [this]

example : (Demo.after [Demo.largest 10, Demo.g 4, Demo.off]).policy = .off := by decide +kernel

/-! ### C75 -/

/-- The configuration read by the last `update` of a history. -/
def lastCfg : List (Op Q W S) → Option Cfg
  | [] => none
  | .update cfg :: rest => match lastCfg rest with
    | none => some cfg
    | some c => some c
  | .get _ _ :: rest => lastCfg rest
  | .clear :: rest => lastCfg rest

theorem lastCfg_snoc (ops : List (Op Q W S)) (op : Op Q W S) :
    lastCfg (ops ++ [op]) = match op with
      | .update cfg => some cfg
      | _ => lastCfg ops := by
  induction ops with
  | nil => cases op <;> rfl
  | cons a ops ih =>
    cases a <;> simp only [List.cons_append, lastCfg] <;> rw [ih] <;> cases op <;> rfl

theorem policyReduce_cfg (tgt : Option Int) (s : Cache K W S) :
    (policyReduce tgt s).policy = s.policy ∧ (policyReduce tgt s).maxMem = s.maxMem ∧
      (policyReduce tgt s).strict = s.strict := by
  unfold policyReduce
  split <;> simp_all [clear]

theorem reduce_cfg (tgt : Option Int) (s : Cache K W S) (h : Limited s.policy) :
    (reduce tgt s).2.policy = s.policy ∧ (reduce tgt s).2.maxMem = s.maxMem ∧ (reduce tgt s).2.strict = s.strict := by
  have hc : (check s.policy s).2 = s := by
    unfold check
    rcases h with h | h <;> rw [h] <;> simp only <;> cases s.maxMem <;> simp only <;> split <;> rfl
  unfold reduce
  generalize check s.policy s = r at hc
  obtain ⟨e, s1⟩ := r
  simp only at hc
  subst hc
  cases e with
  | some e => exact ⟨rfl, rfl, rfl⟩
  | none =>
    simp only
    split
    · exact policyReduce_cfg _ _
    · exact ⟨rfl, rfl, rfl⟩

theorem check_policy' (p : Policy) (s : Cache K W S) : (check p s).2.policy = s.policy := by
  unfold check
  cases p <;> simp only <;> cases s.maxMem <;> simp only <;> split <;> rfl

theorem reduce_policy' (tgt : Option Int) (s : Cache K W S) : (reduce tgt s).2.policy = s.policy := by
  have h := check_policy' s.policy s
  unfold reduce
  generalize check s.policy s = r at h
  obtain ⟨e, s1⟩ := r
  simp only at h
  cases e with
  | some e => exact h
  | none =>
    simp only
    split
    · rw [(policyReduce_cfg _ _).1]; exact h
    · exact h

theorem update_applies (cfg : Cfg) (s : Cache K W S) (hv : cfg.Valid) :
    some (update cfg s).2.policy = cfg.policy ∧ (Limited (update cfg s).2.policy →
      some (update cfg s).2.maxMem = cfg.maxMem ∧ (update cfg s).2.strict = cfg.strict) := by
  obtain ⟨v, p, h1, h2, h3⟩ := hv
  have key : ∃ b s', updateAssign cfg s = (.ok b, s') ∧ s'.policy = p ∧
      (Limited p → s'.maxMem = v ∧ s'.strict = cfg.strict) := by
    unfold updateAssign
    rw [h1, h2]
    simp only
    by_cases hp : s.policy = p
    · rw [if_pos hp]
      exact ⟨_, _, rfl, hp, fun _ => ⟨rfl, rfl⟩⟩
    · rw [if_neg hp]
      cases p with
      | off => exact ⟨_, _, rfl, rfl, fun h => by rcases h with h | h <;> cases h⟩
      | unlimited => exact ⟨_, _, rfl, rfl, fun h => by rcases h with h | h <;> cases h⟩
      | lru =>
        obtain ⟨m, rfl, hm⟩ := h3 (Or.inl rfl)
        simp only [check, show ¬ m ≤ 0 by omega, if_false]
        exact ⟨_, _, rfl, rfl, fun _ => ⟨rfl, rfl⟩⟩
      | largest =>
        obtain ⟨m, rfl, hm⟩ := h3 (Or.inr rfl)
        simp only [check, show ¬ m ≤ 0 by omega, if_false]
        exact ⟨_, _, rfl, rfl, fun _ => ⟨rfl, rfl⟩⟩
  obtain ⟨b, s', hk, hp, hl⟩ := key
  unfold update
  rw [hk, h1, h2]
  cases b with
  | false =>
    simp only [updateFinish]
    refine ⟨by rw [hp], ?_⟩
    intro h
    rw [hp] at h
    exact ⟨by rw [(hl h).1], (hl h).2⟩
  | true =>
    simp only [updateFinish]
    refine ⟨by rw [reduce_policy', hp], ?_⟩
    intro h
    rw [reduce_policy', hp] at h
    obtain ⟨_, e2, e3⟩ := reduce_cfg none s' (by rw [hp]; exact h)
    rw [e2, e3]
    exact ⟨by rw [(hl h).1], (hl h).2⟩

theorem get_strict (key : Q → K) (sizeFn : W → Nat) (src : Source Q W S) (q : Q) (s : Cache K W S)
    (hacc : Acc s) (h : s.policy ≠ .unlimited) : (get key sizeFn src q s).2.strict = s.strict := by
  have h := get_cases key sizeFn src q s hacc
  generalize (get key sizeFn src q s).1 = o at h
  generalize (get key sizeFn src q s).2 = s' at h
  cases h <;> simp_all

/-- C75: after any history with valid reconfigurations, the policy in force is the one configured last, and for the
limited policies so are the limit and the strict flag (lookups and clears in between change none of them). -/
theorem C75_follows_last_configuration (key : Q → K) (sizeFn : W → Nat) (ops : List (Op Q W S)) (hv : OpsValid ops)
    (cfg : Cfg) (hl : lastCfg ops = some cfg) :
    let s := run key sizeFn (initial : Cache K W S) ops
    some (info s).policy = cfg.policy ∧
      (Limited (info s).policy → some (info s).maxsize = cfg.maxMem ∧ s.strict = cfg.strict) := by
  intro s
  simp only [info, s]
  revert hv hl
  apply run_ind key sizeFn initial (fun ops s => OpsValid ops → lastCfg ops = some cfg →
    some s.policy = cfg.policy ∧ (Limited s.policy → some s.maxMem = cfg.maxMem ∧ s.strict = cfg.strict))
  · intro _ h; simp [lastCfg] at h
  · intro ops op ih hv hl
    have hacc := run_acc (S := S) key sizeFn ops
    have hv' : OpsValid ops := fun cfg hc => hv cfg (by simp [hc])
    rw [lastCfg_snoc] at hl
    cases op with
    | get src q =>
      obtain ⟨i1, i2⟩ := ih hv' hl
      obtain ⟨g1, g2⟩ := get_policy key sizeFn src q _ hacc
      simp only [step]
      rw [g1]
      refine ⟨i1, ?_⟩
      intro h
      have hne : (run key sizeFn (initial : Cache K W S) ops).policy ≠ .unlimited := by
        intro e; rw [e] at h; rcases h with h | h <;> cases h
      rw [g2 hne, get_strict key sizeFn src q _ hacc hne]
      exact i2 h
    | update c =>
      cases hl
      exact update_applies cfg _ (hv cfg (by simp))
    | clear => exact ih hv' hl

example : lastCfg [Demo.lru 10, Demo.g 5, Demo.strict 7, Demo.g 4, .clear] = some ⟨some (some 7), true, some .largest⟩ :=
  rfl
example : (Demo.after [Demo.lru 10, Demo.g 5, Demo.strict 7, Demo.g 4, .clear]).strict = true := by decide +kernel

end Verif.MemCache
