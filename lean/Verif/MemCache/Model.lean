import Mathlib.Order.Defs.LinearOrder

/-!
# Model of `src/earthkit/regrid/utils/memcache.py`

Type parameters: `Q` a request (the `*args` of `MemoryCache.get`: normalised input gridspec, output
gridspec and method), `K` the cache key (`make_sha(args)`, a hex digest; only its total order is used),
`W` a sparse matrix, `S` a target shape.

Simplifications, all local to this file:
* `_MemoryItem.last` (a wall clock time that no code reads) is not kept.
* `matrix_memory_size` (utils/matrix.py:11-19) returns a natural number (byte counts; it returns 0 when
  it cannot compute the size) and is a parameter `sizeFn`.
* configured `strict` values are python booleans.
* log messages are dropped.
-/

namespace Verif.MemCache

/-- memcache.py:78,95,113,141 — the four policy classes (`CACHE_POLICIES`, line 172). -/
inductive Policy where
  | off | unlimited | lru | largest
  deriving DecidableEq, Repr

namespace Policy

/-- `has_cache` — memcache.py:88-89, 106-107, 134-135, 165-166. -/
def hasCache : Policy → Bool
  | off => false
  | unlimited => true
  | lru => true
  | largest => true

/-- `has_limit` — memcache.py:91-92, 109-110, 137-138, 168-169. -/
def hasLimit : Policy → Bool
  | off => false
  | unlimited => false
  | lru => true
  | largest => true

end Policy

/-- Exceptions that leave the functions below. -/
inductive Err where
  /-- `None <= 0`, `None - int` -/
  | typeError
  /-- `check` of lru/largest with a non positive limit (memcache.py:117-118, 145-146) -/
  | badLimit
  /-- `MemoryCachePolicy.make` with an unknown name (memcache.py:65-66) -/
  | unknownPolicy
  /-- strict mode refusal (memcache.py:274-280) -/
  | tooLarge
  /-- whatever the inventory raises in find_entry / create_from_entry / create -/
  | source (code : Nat)
  /-- `CONFIG.get` raising (e.g. `as_bytes` on an invalid environment value) -/
  | config
  deriving DecidableEq, Repr

/-- `_MemoryItem` (memcache.py:24) together with its key in `self.items`. -/
structure Item (K W S : Type) where
  key : K
  data : Option W × Option S
  size : Nat
  deriving DecidableEq, Repr

/-- The attributes of `MemoryCache` (memcache.py:201-212). `items` is the `OrderedDict`, oldest first. -/
structure Cache (K W S : Type) where
  items : List (Item K W S)
  maxMem : Option Int
  currMem : Int
  hits : Nat
  misses : Nat
  strict : Bool
  policy : Policy
  deriving DecidableEq, Repr

/-- An index entry as far as the cache looks into it: `entry["_raw"]["memory"]`, absent or unusable
means estimate 0 (memcache.py:39-45), and the rest of the entry, on which only the loader depends. -/
structure Entry where
  memory : Option Int
  tag : Nat
  deriving DecidableEq, Repr

/-- The inventory as seen by the cache: the callables given to `MemoryCache.get`
(backends/db.py:468-476). -/
structure Source (Q W S : Type) where
  findEntry : Q → Except Err (Option Entry)
  createFromEntry : Option Entry → Except Err (Option W × Option S)

/-- Calls made on the source while serving one request (ghost output used to count loads). -/
inductive Call (Q : Type) where
  | find (q : Q)
  | load (e : Option Entry)
  deriving DecidableEq, Repr

variable {Q K W S : Type}

/-- `MatrixDb._create_matrix` (backends/db.py:479-480): the uncached lookup, given to the cache as `create`. -/
def Source.create (src : Source Q W S) (q : Q) : Except Err (Option W × Option S) :=
  match src.findEntry q with
  | .error e => .error e
  | .ok e => src.createFromEntry e

/-- Calls made by `create`. -/
def Source.createCalls (src : Source Q W S) (q : Q) : List (Call Q) :=
  match src.findEntry q with
  | .error _ => [.find q]
  | .ok e => [.find q, .load e]

/-- `estimate_matrix_size` — memcache.py:39-45. -/
def estimate (e : Entry) : Int := e.memory.getD 0

/-- `_curr_mem` — memcache.py:340-342. -/
def sumSizes : List (Item K W S) → Int
  | [] => 0
  | it :: rest => it.size + sumSizes rest

/-- `_clear` — memcache.py:333-338. -/
def clear (s : Cache K W S) : Cache K W S :=
  { s with items := [], hits := 0, misses := 0, currMem := 0 }

/-- `check` of a policy object of the given class on the cache — memcache.py:81-83, 98-100, 116-120, 144-148.
The comparison `max_mem <= 0` precedes the `None` test, so `None` gives a TypeError. -/
def check (p : Policy) (s : Cache K W S) : Option Err × Cache K W S :=
  match p with
  | .off => (none, { s with maxMem := some 0, strict := false })
  | .unlimited => (none, { s with maxMem := none, strict := false })
  | .lru | .largest =>
    match s.maxMem with
    | none => (some .typeError, s)
    | some m => if m ≤ 0 then (some .badLimit, s) else (none, s)

/-- `LRUPolicy.reduce` loop — memcache.py:122-132. -/
def lruLoop (target : Int) : List (Item K W S) → Int → List (Item K W S) × Int
  | [], c => ([], c)
  | it :: rest, c => if target ≤ c then lruLoop target rest (c - it.size) else (it :: rest, c)

variable [LinearOrder K]

/-- Python tuple comparison `(a.size, a.key) < (b.size, b.key)`. -/
def pairLt (a b : Item K W S) : Bool :=
  a.size < b.size || (a.size == b.size && a.key < b.key)

/-- `max((v.size, k) for k, v in items.items())` — memcache.py:156; the running maximum is replaced only by
a strictly larger pair. -/
def pyMax (b : Item K W S) : List (Item K W S) → Item K W S
  | [] => b
  | x :: xs => if pairLt b x then pyMax x xs else pyMax b xs

/-- `del items[k]` -/
def delKey (k : K) (items : List (Item K W S)) : List (Item K W S) :=
  items.eraseP (fun it => decide (it.key = k))

theorem pyMax_mem (b : Item K W S) (xs : List (Item K W S)) : pyMax b xs ∈ b :: xs := by
  induction xs generalizing b with
  | nil => simp [pyMax]
  | cons x xs ih =>
    unfold pyMax
    split
    · exact List.mem_cons_of_mem _ (ih x)
    · have := ih b
      simp only [List.mem_cons] at this ⊢
      grind

theorem delKey_pyMax_length (x : Item K W S) (xs : List (Item K W S)) :
    (delKey (pyMax x xs).key (x :: xs)).length < (x :: xs).length := by
  unfold delKey
  rw [List.length_eraseP_of_mem (pyMax_mem x xs) (by simp)]
  simp

/-- `LargestPolicy.reduce` loop — memcache.py:150-163. -/
def largestLoop (target : Int) : List (Item K W S) → Int → List (Item K W S) × Int
  | [], c => ([], c)
  | x :: xs, c =>
    if target ≤ c then
      let b := pyMax x xs
      let c1 := c - b.size
      let c2 := if c1 < 0 then 0 else c1
      largestLoop target (delKey b.key (x :: xs)) c2
    else (x :: xs, c)
termination_by items => items.length
decreasing_by exact delKey_pyMax_length x xs

/-- `policy.reduce(target_size=...)` — memcache.py:85-86, 102-104, 122-132, 150-163.
For lru/largest the target is always a number here (`_reduce` ran `check`). -/
def policyReduce (target : Option Int) (s : Cache K W S) : Cache K W S :=
  match s.policy, target with
  | .off, _ => clear s
  | .unlimited, _ => { s with currMem := sumSizes s.items }
  | .lru, some t =>
    let r := lruLoop t s.items s.currMem
    { s with items := r.1, currMem := r.2 }
  | .largest, some t =>
    let r := largestLoop t s.items s.currMem
    { s with items := r.1, currMem := r.2 }
  | .lru, none | .largest, none => s

/-- `_reduce` — memcache.py:316-326. -/
def reduce (target : Option Int) (s : Cache K W S) : Option Err × Cache K W S :=
  match check s.policy s with
  | (some e, s1) => (some e, s1)
  | (none, s1) =>
    if s1.policy.hasCache then
      let t := target <|> s1.maxMem
      (none, policyReduce t { s1 with currMem := sumSizes s1.items })
    else (none, clear s1)

/-- `self.items.move_to_end(key)` — memcache.py:235. -/
def moveToEnd (k : K) (items : List (Item K W S)) : List (Item K W S) :=
  match items.find? (fun it => decide (it.key = k)) with
  | none => items
  | some it => delKey k items ++ [it]

/-- Outcome of serving one request. -/
structure Out (Q W S : Type) where
  res : Except Err (Option W × Option S)
  calls : List (Call Q)

/-- `_create_with_pre_check` — memcache.py:258-282. -/
def createWithPreCheck (src : Source Q W S) (q : Q) (s : Cache K W S) : Out Q W S × Cache K W S :=
  match src.findEntry q with
  | .error e => (⟨.error e, [.find q]⟩, s)
  | .ok none => (⟨src.createFromEntry none, [.find q, .load none]⟩, s)
  | .ok (some e) =>
    match s.maxMem with
    | none => (⟨.error .typeError, [.find q]⟩, s)
    | some m =>
      let est := estimate e
      let r := if m - s.currMem < est ∧ est ≤ m then reduce (some (m - est)) s else (none, s)
      match r with
      | (some err, s1) => (⟨.error err, [.find q]⟩, s1)
      | (none, s1) =>
        if s1.strict = true ∧ m - s1.currMem < est then (⟨.error .tooLarge, [.find q]⟩, s1)
        else (⟨src.createFromEntry (some e), [.find q, .load (some e)]⟩, s1)

/-- `get` — memcache.py:223-251, executed by one thread. -/
def get (key : Q → K) (sizeFn : W → Nat) (src : Source Q W S) (q : Q) (s : Cache K W S) :
    Out Q W S × Cache K W S :=
  if s.policy.hasCache then
    let k := key q
    match s.items.find? (fun it => decide (it.key = k)) with
    | some it => (⟨.ok it.data, []⟩, { s with items := moveToEnd k s.items, hits := s.hits + 1 })
    | none =>
      let r :=
        if s.policy.hasLimit then createWithPreCheck src q s
        else (⟨src.create q, src.createCalls q⟩, s)
      match r with
      | (⟨.error e, c⟩, s1) => (⟨.error e, c⟩, s1)
      | (⟨.ok (none, sh), c⟩, s1) => (⟨.ok (none, sh), c⟩, { s1 with misses := s1.misses + 1 })
      | (⟨.ok (some w, sh), c⟩, s1) =>
        let it : Item K W S := ⟨k, (some w, sh), sizeFn w⟩
        let s2 := { s1 with
          misses := s1.misses + 1
          items := s1.items ++ [it]
          currMem := s1.currMem + it.size }
        match reduce none s2 with
        | (some e, s3) => (⟨.error e, c⟩, s3)
        | (none, s3) => (⟨.ok (some w, sh), c⟩, s3)
  else (⟨src.create q, src.createCalls q⟩, s)

/-- What `CONFIG.get` gives for the three keys read by `update`: the size (possibly `None`, possibly raising),
the strict flag, the policy name (`none`: a name not in `CACHE_POLICIES`, possible through the environment). -/
structure Cfg where
  maxMem : Option (Option Int)
  strict : Bool
  policy : Option Policy
  deriving DecidableEq, Repr

/-- First part of `update`: the list of the three assignments — memcache.py:291-313.
Result: error or whether something changed. -/
def updateAssign (cfg : Cfg) (s : Cache K W S) : Except Err Bool × Cache K W S :=
  match cfg.maxMem with
  | none => (.error .config, s)
  | some v =>
    let c1 := decide (s.maxMem ≠ v)
    let s1 := { s with maxMem := v }
    let c2 := decide (s1.strict ≠ cfg.strict)
    let s2 := { s1 with strict := cfg.strict }
    match cfg.policy with
    | none => (.error .unknownPolicy, s2)
    | some p =>
      if s2.policy = p then (.ok (c1 || c2), s2)
      else
        match check p s2 with
        | (some e, s3) => (.error e, s3)
        | (none, s3) => (.ok true, { s3 with policy := p })

/-- Second part of `update` — memcache.py:307-314. -/
def updateFinish (r : Except Err Bool) (s : Cache K W S) : Option Err × Cache K W S :=
  match r with
  | .error e => (some e, s)
  | .ok true => reduce none s
  | .ok false => (none, s)

/-- `update` — memcache.py:284-314. -/
def update (cfg : Cfg) (s : Cache K W S) : Option Err × Cache K W S :=
  let r := updateAssign cfg s
  updateFinish r.1 r.2

/-- `_CacheInfo` — memcache.py:25. -/
structure Info where
  hits : Nat
  misses : Nat
  maxsize : Option Int
  currsize : Int
  count : Nat
  policy : Policy
  deriving DecidableEq, Repr

/-- `info` — memcache.py:344-354. -/
def info (s : Cache K W S) : Info :=
  ⟨s.hits, s.misses, s.maxMem, s.currMem, s.items.length, s.policy⟩

/-- `MemoryCache.__init__` before its final `self.update()` — memcache.py:180-220 with the arguments of
line 370 (all defaults). The `update` of line 221 is an ordinary `Op.update`. -/
def initial : Cache K W S :=
  { items := [], maxMem := some (300 * 1024 * 1024), currMem := 0, hits := 0, misses := 0,
    strict := false, policy := .largest }

/-- Operations on the cache. Each `get` carries the source it is made with. -/
inductive Op (Q W S : Type) where
  | get (src : Source Q W S) (q : Q)
  | update (cfg : Cfg)
  | clear

/-- Result of one operation. -/
inductive Res (Q W S : Type) where
  | got (o : Out Q W S)
  | unit (e : Option Err)

/-- One operation. -/
def step (key : Q → K) (sizeFn : W → Nat) (s : Cache K W S) : Op Q W S → Res Q W S × Cache K W S
  | .get src q => let r := get key sizeFn src q s; (.got r.1, r.2)
  | .update cfg => let r := update cfg s; (.unit r.1, r.2)
  | .clear => (.unit none, clear s)

/-- A history of operations. -/
def run (key : Q → K) (sizeFn : W → Nat) (s : Cache K W S) (ops : List (Op Q W S)) : Cache K W S :=
  ops.foldl (fun s op => (step key sizeFn s op).2) s

end Verif.MemCache
