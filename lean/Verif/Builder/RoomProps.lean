import Verif.Builder.MemoryProps
import Verif.MemCache.MemoryProps

/-!
# C168: weights of a built inventory are loaded within the memory limit

docs/guide/misc/memory_cache.rst: before weights are loaded the cache makes room for them. It does so by the memory the inventory records (C123), which the
builder writes (C166). Here both together: one program builds the inventory, another one interpolates with it.
-/

namespace Verif.Builder
open Verif.GridSpec Verif.Index Verif.MemCache
open Verif.Regrid (Csr)

variable {Q K S : Type} [LinearOrder K]

/-! ## Model -/

/-- The entries of `index.json` -/
def World.entries (w : World) : List (String × Raw) :=
  match w.index with
  | some f => f.matrix.getD []
  | none => []

/-- `load_matrix` of a local inventory — db.py:287-288, 398-399, 500-503: the file of the entry in its directory below `root`. `weights`: what `load_npz` returns;
`shape`: `entry["output"]["shape"]`. -/
def loadMatrix (root : List Char) (weights : Csr Nat → Weights) (shape : Raw → S) (w : World) (x : String × Raw) : Except MemCache.Err (Option Weights × Option S) :=
  match methodName x.2 with
  | .error _ => .error (.source 0)
  | .ok n =>
    match w.files (ReadAt root x.1 x.2.engine x.2.version n) with
    | some (.npz m) => .ok (some (weights m), some (shape x.2))
    | _ => .error (.source 1)

/-- What the memory cache is given for an inventory on disk — db.py:468-498. `pick`: the position of the entry the search finds, if any, for a request
(the search is the subject of C18 and others; here it may be any). -/
def inventory (root : List Char) (weights : Csr Nat → Weights) (shape : Raw → S) (mem : Nat → Nat) (w : World) (pick : Q → Option Nat) :
    Source Q Weights S where
  findEntry q :=
    match pick q with
    | none => .ok none
    | some i =>
      match w.entries[i]? with
      | none => .ok none
      | some x => .ok (some ⟨some (mem x.2.extra), i⟩)
  createFromEntry
    | none => .ok (none, none)
    | some e =>
      match w.entries[e.tag]? with
      | none => .error (.source 2)
      | some x => loadMatrix root weights shape w x

/-! ## Specification -/

/-- The program interpolates with inventories on disk only. -/
def FromDisk (root : List Char) (weights : Csr Nat → Weights) (shape : Raw → S) (mem : Nat → Nat) (ops : List (Op Q Weights S)) : Prop :=
  ∀ src q, Op.get src q ∈ ops → ∃ w pick, src = inventory root weights shape mem w pick

/-! ## Proof -/

theorem loadMatrix_weights {root : List Char} {weights : Csr Nat → Weights} {shape : Raw → S} {w : World} {x : String × Raw} {v : Weights} {sh : Option S}
    (h : loadMatrix root weights shape w x = .ok (some v, sh)) :
    ∃ n m, methodName x.2 = .ok n ∧ w.files (ReadAt root x.1 x.2.engine x.2.version n) = some (.npz m) ∧ v = weights m := by
  unfold loadMatrix at h
  cases hn : methodName x.2 with
  | error e => rw [hn] at h; cases h
  | ok n =>
    rw [hn] at h
    simp only at h
    cases hf : w.files (ReadAt root x.1 x.2.engine x.2.version n) with
    | none => rw [hf] at h; cases h
    | some c =>
      rw [hf] at h
      cases c with
      | npz m => cases h; exact ⟨n, m, rfl, hf, rfl⟩
      | _ => cases h

/-- A request answered with weights: the entry found, and the file read for it. -/
theorem inventory_create {root : List Char} {weights : Csr Nat → Weights} {shape : Raw → S} {mem : Nat → Nat} {w : World} {pick : Q → Option Nat} {q : Q}
    {v : Weights} {sh : Option S} (h : (inventory root weights shape mem w pick).create q = .ok (some v, sh)) :
    ∃ i x n m, (inventory root weights shape mem w pick).findEntry q = .ok (some ⟨some (mem x.2.extra), i⟩) ∧
      (inventory root weights shape mem w pick).createFromEntry (some ⟨some (mem x.2.extra), i⟩) = .ok (some v, sh) ∧ x ∈ w.entries ∧
      methodName x.2 = .ok n ∧ w.files (ReadAt root x.1 x.2.engine x.2.version n) = some (.npz m) ∧ v = weights m := by
  unfold Source.create at h
  cases hp : pick q with
  | none =>
    have : (inventory root weights shape mem w pick).findEntry q = .ok none := by simp [inventory, hp]
    rw [this] at h; cases h
  | some i =>
    cases hx : w.entries[i]? with
    | none =>
      have : (inventory root weights shape mem w pick).findEntry q = .ok none := by simp [inventory, hp, hx]
      rw [this] at h; cases h
    | some x =>
      have hf : (inventory root weights shape mem w pick).findEntry q = .ok (some ⟨some (mem x.2.extra), i⟩) := by simp [inventory, hp, hx]
      rw [hf] at h
      have h : (inventory root weights shape mem w pick).createFromEntry (some ⟨some (mem x.2.extra), i⟩) = .ok (some v, sh) := h
      have hc : (inventory (Q := Q) root weights shape mem w pick).createFromEntry (some ⟨some (mem x.2.extra), i⟩) = loadMatrix root weights shape w x := by
        simp [inventory, hx]
      obtain ⟨n, m, h1, h2, h3⟩ := loadMatrix_weights (hc ▸ h)
      exact ⟨i, x, n, m, hf, h, List.mem_of_getElem? hx, h1, h2, h3⟩

theorem fromDisk_counted {root : List Char} {weights : Csr Nat → Weights} {shape : Raw → S} {mem : Nat → Nat} {ops : List (Op Q Weights S)}
    (hcsr : ∀ m, (weights m).format = .csr) (h : FromDisk root weights shape mem ops) : OpsCounted ops := by
  intro src q v sh ho hc
  obtain ⟨w, pick, rfl⟩ := h src q ho
  obtain ⟨_, _, _, m, _, _, _, _, _, rfl⟩ := inventory_create hc
  exact .inl (hcsr m)

/-- In an accurate inventory the memory of the entry found is that of the weights loaded. -/
theorem accurate_found {root : List Char} {weights : Csr Nat → Weights} {shape : Raw → S} {mem : Nat → Nat} {w : World} {pick : Q → Option Nat} {q : Q}
    {v : Weights} {sh : Option S} (hcsr : ∀ m, (weights m).format = .csr) (ha : Accurate (fun m => matrixMemorySize (weights m)) mem root w)
    (h : (inventory root weights shape mem w pick).create q = .ok (some v, sh)) :
    ∃ e, (inventory root weights shape mem w pick).findEntry q = .ok (some e) ∧
      (inventory root weights shape mem w pick).createFromEntry (some e) = .ok (some v, sh) ∧ e.memory = some (v.bytes : Int) := by
  obtain ⟨i, x, n, m, h1, h2, h3, h4, h5, rfl⟩ := inventory_create h
  refine ⟨_, h1, h2, ?_⟩
  unfold World.entries at h3
  cases hi : w.index with
  | none => rw [hi] at h3; cases h3
  | some f =>
    rw [hi] at h3
    simp only at h3
    cases hes : f.matrix with
    | none => rw [hes] at h3; cases h3
    | some es =>
      rw [hes] at h3
      obtain ⟨n', m', k1, k2, k3⟩ := ha f es hi hes x.1 x.2 h3
      have hn : n' = n := by
        have := (methodName_ok _ _).2 k1
        rw [h4] at this; cases this; rfl
      subst hn
      rw [h5] at k2; cases k2
      simp only at k3
      rw [k3, counted_size _ (.inl (hcsr m))]

/-- C168: an inventory is built, by builds that all return. A program whose cache has a limit loads weights from it: at that time what the cache holds
and the weights take at most the limit together, if the weights do so or the cache is strict; whatever the program did before.
Partial: weights larger than the limit outside strict mode (`C168_refuted`), and builds that raise (`C166_refuted`). -/
theorem C168_loading_partial (P : Py) (D : Digests) (weights : Csr Nat → Weights) (shape : Raw → S) (mem : Nat → Nat) (root : List Char)
    (hD : ∀ x y i, '/' ∉ (D.key x y i).toList) (hcsr : ∀ m, (weights m).format = .csr)
    (hmem : ∀ i u n m, mem (D.extra i u n m) = matrixMemorySize (weights m)) (as : List Args) (ha : ∀ a ∈ as, a.outputPath = root) (w : World)
    (hw : w.index = none) (hok : AllReturn P D as w) (key : Q → K) (ops : List (Op Q Weights S)) (hv : OpsValid ops)
    (hops : FromDisk root weights shape mem ops) (limit : Int) (hp : Limited (run key matrixMemorySize (initial : Cache K Weights S) ops).policy)
    (hlim : (run key matrixMemorySize (initial : Cache K Weights S) ops).maxMem = some limit) (pick : Q → Option Nat) (q : Q) (v : Weights) (sh : Option S)
    (hc : (inventory root weights shape mem (builds P D as w) pick).create q = .ok (some v, sh)) (s1 : Cache K Weights S)
    (h : whileLoading key (inventory root weights shape mem (builds P D as w) pick) q (run key matrixMemorySize initial ops) = some s1)
    (hfit : (v.bytes : Int) ≤ limit ∨ (run key matrixMemorySize (initial : Cache K Weights S) ops).strict = true) : heldBytes s1 + v.bytes ≤ limit := by
  have hacc := C166_recorded_partial P D (fun m => matrixMemorySize (weights m)) mem root hD hmem as ha w hw hok
  obtain ⟨e, h1, h2, h3⟩ := accurate_found hcsr hacc hc
  exact C123_loading_partial key ops hv (fromDisk_counted hcsr hops) _ q s1 e v sh limit hp hlim h1 h2 h3 h hfit

/-- C168, strict mode: weights of the inventory that take more than the limit are not loaded; the request raises ValueError and the cache stays as it is. -/
theorem C168_strict (P : Py) (D : Digests) (weights : Csr Nat → Weights) (shape : Raw → S) (mem : Nat → Nat) (root : List Char)
    (hD : ∀ x y i, '/' ∉ (D.key x y i).toList) (hcsr : ∀ m, (weights m).format = .csr)
    (hmem : ∀ i u n m, mem (D.extra i u n m) = matrixMemorySize (weights m)) (as : List Args) (ha : ∀ a ∈ as, a.outputPath = root) (w : World)
    (hw : w.index = none) (hok : AllReturn P D as w) (key : Q → K) (ops : List (Op Q Weights S))
    (limit : Int) (hp : Limited (run key matrixMemorySize (initial : Cache K Weights S) ops).policy)
    (hlim : (run key matrixMemorySize (initial : Cache K Weights S) ops).maxMem = some limit)
    (hs : (run key matrixMemorySize (initial : Cache K Weights S) ops).strict = true) (pick : Q → Option Nat) (q : Q) (v : Weights) (sh : Option S)
    (hc : (inventory root weights shape mem (builds P D as w) pick).create q = .ok (some v, sh)) (hbig : limit < v.bytes)
    (hout : ∀ it ∈ (run key matrixMemorySize (initial : Cache K Weights S) ops).items, it.key ≠ key q) :
    MemCache.get key matrixMemorySize (inventory root weights shape mem (builds P D as w) pick) q (run key matrixMemorySize initial ops) =
      (⟨.error .tooLarge, [.find q]⟩, run key matrixMemorySize initial ops) := by
  have hacc := C166_recorded_partial P D (fun m => matrixMemorySize (weights m)) mem root hD hmem as ha w hw hok
  obtain ⟨e, h1, _, h3⟩ := accurate_found hcsr hacc hc
  have hcur := (run_acc (S := S) key matrixMemorySize ops).2
  generalize run key matrixMemorySize (initial : Cache K Weights S) ops = s at *
  have hnn : 0 ≤ s.currMem := by rw [hcur]; exact total_nonneg _
  have hest : estimate e = v.bytes := by simp [estimate, h3]
  have hfind : s.items.find? (fun it => decide (it.key = key q)) = none := by
    rw [List.find?_eq_none]
    intro it hit
    simpa using hout it hit
  have hcache : s.policy.hasCache = true ∧ s.policy.hasLimit = true := by
    rcases hp with hp | hp <;> rw [hp] <;> exact ⟨rfl, rfl⟩
  have hpre : createWithPreCheck (inventory root weights shape mem (builds P D as w) pick) q s = (⟨.error .tooLarge, [.find q]⟩, s) := by
    unfold createWithPreCheck
    rw [h1]
    simp only
    rw [hlim]
    simp only
    rw [hest, if_neg (by omega)]
    simp only
    rw [if_pos ⟨hs, by omega⟩]
  unfold MemCache.get
  rw [if_pos hcache.1]
  simp only
  rw [hfind]
  simp only
  rw [if_pos hcache.2, hpre]

/-- C168 fails outside strict mode: whatever the program did, weights larger than the limit that are not held are loaded, and nothing is evicted first. -/
theorem C168_refuted (P : Py) (D : Digests) (weights : Csr Nat → Weights) (shape : Raw → S) (mem : Nat → Nat) (root : List Char)
    (hD : ∀ x y i, '/' ∉ (D.key x y i).toList) (hcsr : ∀ m, (weights m).format = .csr)
    (hmem : ∀ i u n m, mem (D.extra i u n m) = matrixMemorySize (weights m)) (as : List Args) (ha : ∀ a ∈ as, a.outputPath = root) (w : World)
    (hw : w.index = none) (hok : AllReturn P D as w) (key : Q → K) (ops : List (Op Q Weights S))
    (limit : Int) (hp : Limited (run key matrixMemorySize (initial : Cache K Weights S) ops).policy)
    (hlim : (run key matrixMemorySize (initial : Cache K Weights S) ops).maxMem = some limit)
    (hs : (run key matrixMemorySize (initial : Cache K Weights S) ops).strict = false) (pick : Q → Option Nat) (q : Q) (v : Weights) (sh : Option S)
    (hc : (inventory root weights shape mem (builds P D as w) pick).create q = .ok (some v, sh)) (hbig : limit < v.bytes)
    (hout : ∀ it ∈ (run key matrixMemorySize (initial : Cache K Weights S) ops).items, it.key ≠ key q) :
    whileLoading key (inventory root weights shape mem (builds P D as w) pick) q (run key matrixMemorySize initial ops) =
      some (run key matrixMemorySize initial ops) ∧
    limit < heldBytes (run key matrixMemorySize (initial : Cache K Weights S) ops) + v.bytes := by
  have hacc := C166_recorded_partial P D (fun m => matrixMemorySize (weights m)) mem root hD hmem as ha w hw hok
  obtain ⟨e, h1, _, h3⟩ := accurate_found hcsr hacc hc
  generalize run key matrixMemorySize (initial : Cache K Weights S) ops = s at *
  have hest : estimate e = v.bytes := by simp [estimate, h3]
  have hfind : s.items.find? (fun it => decide (it.key = key q)) = none := by
    rw [List.find?_eq_none]
    intro it hit
    simpa using hout it hit
  have hcache : s.policy.hasCache = true ∧ s.policy.hasLimit = true := by
    rcases hp with hp | hp <;> rw [hp] <;> exact ⟨rfl, rfl⟩
  have hpre : createWithPreCheck (inventory root weights shape mem (builds P D as w) pick) q s =
      (⟨(inventory root weights shape mem (builds P D as w) pick).createFromEntry (some e), [.find q, .load (some e)]⟩, s) := by
    unfold createWithPreCheck
    rw [h1]
    simp only
    rw [hlim]
    simp only
    rw [hest, if_neg (by omega)]
    simp only
    rw [if_neg (by rw [hs]; simp)]
  constructor
  · unfold whileLoading
    rw [if_pos hcache.1, hfind]
    simp only
    rw [if_pos hcache.2, hpre]
    rfl
  · have : 0 ≤ heldBytes s := by
      unfold heldBytes
      apply List.sum_nonneg
      intro x hx
      obtain ⟨it, _, rfl⟩ := List.mem_map.1 hx
      exact Int.natCast_nonneg _
    omega

/-! ## Examples -/

/-- Four bytes for each number. -/
def csrWeights (m : Csr Nat) : Weights := ⟨.csr, 4 * m.data.length, 4 * m.indices.length, 4 * m.indptr.length⟩

theorem csrWeights_size (m : Csr Nat) : matrixMemorySize (csrWeights m) = bytesOf m := by
  simp only [matrixMemorySize, csrWeights, bytesOf]; omega

/-- The inventory of the sample: one entry, found for every request. -/
def sampleInventory (P : Py) : Source Nat Weights Unit :=
  inventory "out".toList csrWeights (fun _ => ()) id (builds P plainDigests [sampleArgs (.name "linear".toList)] twoCaches) (fun _ => some 0)

def sampleLimit (m : Int) (strict : Bool) : List (Op Nat Weights Unit) := [.update ⟨some (some m), strict, some .lru⟩]

theorem sample_returns (P : Py) : AllReturn P plainDigests [sampleArgs (.name "linear".toList)] twoCaches := by
  obtain ⟨ix, h⟩ := sample_built P
  exact ⟨by rw [h], trivial⟩

/-- What is built: one entry. -/
theorem sample_world (P : Py) : ∃ ver r, builds P plainDigests [sampleArgs (.name "linear".toList)] twoCaches =
    ⟨twoCaches.files.set target (.npz (asCsr sampleMatrix)), some ⟨ver, some [("k", r)]⟩⟩ ∧ methodName r = .ok "linear".toList ∧
      r.engine = "mir".toList ∧ r.version = "1".toList := by
  obtain ⟨ver, es', r, h, _, hins, _, _, hmr, her, hvr, _⟩ := C71_entry_partial P plainDigests (sampleArgs (.name "linear".toList)) twoCaches
    (mirLatLon 1 181 360 359) (mirLatLon 2 91 180 358)
    ⟨some (.name "linear".toList), some "mir".toList, some "1".toList, 0⟩ _ _ "linear".toList "mir".toList "1".toList "cache.mat".toList 3
    sampleMatrix [] rfl rfl rfl rfl rfl (describes_latlon P 1 181 360 359) (describes_latlon P 2 91 180 358) (.inl rfl) rfl rfl
    (twoFiles_first _ _ _ _) sampleMatrix_wf (.inl ⟨rfl, rfl⟩)
  have hes : es' = [("k", r)] := by
    rcases hins with ⟨_, h⟩ | ⟨a, old, b, _, h, _⟩
    · exact h
    · cases a <;> cases h
  subst hes
  refine ⟨ver, r, ?_, (methodName_ok _ _).2 hmr, her, hvr⟩
  unfold builds
  rw [List.foldl_cons, List.foldl_nil, h]
  rfl

/-- Its weights. -/
theorem sample_weights (P : Py) : (sampleInventory P).create 7 = .ok (some (csrWeights (asCsr sampleMatrix)), some ()) := by
  obtain ⟨ver, r, hw, hn, he, hv⟩ := sample_world P
  unfold sampleInventory
  rw [hw]
  have hl : ∀ w : World, w.files target = some (.npz (asCsr sampleMatrix)) →
      loadMatrix (S := Unit) "out".toList csrWeights (fun _ => ()) w ("k", r) = .ok (some (csrWeights (asCsr sampleMatrix)), some ()) := by
    intro w h
    unfold loadMatrix
    simp only [hn, he, hv]
    unfold target at h
    rw [h]
  exact hl _ (by simp [Mir.Files.set])

/-- An empty cache loads what fits. -/
theorem empty_loads (key : Q → K) (src : Source Q Weights S) (q : Q) (s : Cache K Weights S) (limit : Int) (hp : Limited s.policy)
    (hlim : s.maxMem = some limit) (hi : s.items = []) (h0 : s.currMem = 0) (e : MemCache.Entry) (he : src.findEntry q = .ok (some e))
    (hfit : estimate e ≤ limit) : whileLoading key src q s = some s := by
  have hcache : s.policy.hasCache = true ∧ s.policy.hasLimit = true := by
    rcases hp with hp | hp <;> rw [hp] <;> exact ⟨rfl, rfl⟩
  have hpre : createWithPreCheck src q s = (⟨src.createFromEntry (some e), [.find q, .load (some e)]⟩, s) := by
    unfold createWithPreCheck
    rw [he]
    simp only
    rw [hlim]
    simp only
    rw [if_neg (by omega)]
    simp only
    rw [if_neg (by omega)]
  unfold whileLoading
  rw [if_pos hcache.1, hi]
  simp only [List.find?_nil]
  rw [if_pos hcache.2, hpre]
  rfl

/-- `C168_loading_partial`: 40 bytes are loaded under a limit of 50. -/
example (P : Py) : ∃ s1, whileLoading id (sampleInventory P) 7 (run id matrixMemorySize initial (sampleLimit 50 false)) = some s1 ∧
    heldBytes s1 + (csrWeights (asCsr sampleMatrix)).bytes ≤ 50 := by
  have hw : ∃ s1, whileLoading id (sampleInventory P) 7 (run id matrixMemorySize initial (sampleLimit 50 false)) = some s1 := by
    obtain ⟨e, h1, _, h3⟩ := accurate_found (fun _ => rfl) (C166_recorded_partial P plainDigests (fun m => matrixMemorySize (csrWeights m)) id "out".toList
      (fun _ _ _ => by simp only [plainDigests]; decide) (fun _ _ _ m => (csrWeights_size m).symm) [sampleArgs (.name "linear".toList)]
      (by simp [sampleArgs]) twoCaches rfl (sample_returns P)) (sample_weights P)
    have hest : estimate e = 40 := by unfold estimate; rw [h3]; decide
    exact ⟨_, empty_loads id (sampleInventory P) 7 _ 50 (.inl rfl) rfl rfl rfl e h1 (by rw [hest]; decide)⟩
  obtain ⟨s1, h⟩ := hw
  refine ⟨s1, h, ?_⟩
  exact C168_loading_partial P plainDigests csrWeights (fun _ => ()) id "out".toList (fun _ _ _ => by simp only [plainDigests]; decide) (fun _ => rfl)
    (fun _ _ _ m => (csrWeights_size m).symm) [sampleArgs (.name "linear".toList)] (by simp [sampleArgs]) twoCaches rfl (sample_returns P) id (sampleLimit 50 false)
    (by
      intro cfg hc
      simp only [sampleLimit, List.mem_singleton, Op.update.injEq] at hc
      subst hc
      exact ⟨some 50, .lru, rfl, rfl, fun _ => ⟨50, rfl, by decide⟩⟩)
    (by intro src q h; simp [sampleLimit] at h) 50 (.inl rfl) rfl _ 7 _ _ (sample_weights P) s1 h (.inl (by decide))

/-- `C168_strict`: not under a limit of 30. -/
example (P : Py) : (MemCache.get id matrixMemorySize (sampleInventory P) 7 (run id matrixMemorySize initial (sampleLimit 30 true))).1.res =
    .error .tooLarge := by
  have := C168_strict P plainDigests csrWeights (fun _ => ()) id "out".toList (fun _ _ _ => by simp only [plainDigests]; decide) (fun _ => rfl)
    (fun _ _ _ m => (csrWeights_size m).symm) [sampleArgs (.name "linear".toList)] (by simp [sampleArgs]) twoCaches rfl (sample_returns P) id (sampleLimit 30 true)
    30 (.inl rfl) rfl rfl _ 7 _ _ (sample_weights P) (by decide) (fun it hit => absurd hit List.not_mem_nil)
  unfold sampleInventory
  rw [this]

/-- `C168_refuted`: they are if the cache is not strict. -/
example (P : Py) : ∃ s1, whileLoading id (sampleInventory P) 7 (run id matrixMemorySize initial (sampleLimit 30 false)) = some s1 ∧
    30 < heldBytes s1 + (csrWeights (asCsr sampleMatrix)).bytes :=
  ⟨_, C168_refuted P plainDigests csrWeights (fun _ => ()) id "out".toList (fun _ _ _ => by simp only [plainDigests]; decide) (fun _ => rfl)
    (fun _ _ _ m => (csrWeights_size m).symm) [sampleArgs (.name "linear".toList)] (by simp [sampleArgs]) twoCaches rfl (sample_returns P) id (sampleLimit 30 false)
    30 (.inl rfl) rfl rfl _ 7 _ _ (sample_weights P) (by decide) (fun it hit => absurd hit List.not_mem_nil)⟩

end Verif.Builder
