import Verif.Remote.Props2

/-! # C161: repeated calls of `regrid()` with the disk cache off

docs/guide/misc/caching.rst, cache policy "off": "Since caching is disabled, all repeated calls to regrid() will download the interpolation
matrix again!". That is so when the in-memory cache is off too; with the in-memory cache (on by default) the repeated call downloads nothing. -/

namespace Verif.Remote
open Verif.GridSpec Verif.Regrid Verif.DiskCache.Download

/-! ### Specification -/

section
variable {α B D : Type} {S : Setting α B}

/-- How many files the server has been asked for. -/
def downloads (s : St S D) : Nat := s.disk.contacts.count .download

/-- One call of `regrid()`. -/
structure Use (α B D : Type) where
  conn : Conn B D
  x : Arr α
  inGrid : Dict
  outGrid : Dict
  method : List Char

variable [Zero α] [Add α] [Mul α]

/-- What the call returns. -/
def Use.result (u : Use α B D) (s : St S D) : Except Regrid.Err (Arr α × Dict) := (regrid u.conn u.x u.inGrid u.outGrid u.method s).1

/-- The state after these calls. -/
def useAll : St S D → List (Use α B D) → St S D
  | s, [] => s
  | s, u :: us => useAll (regrid u.conn u.x u.inGrid u.outGrid u.method s).2 us

/-- All calls return values. -/
def AllReturn : St S D → List (Use α B D) → Prop
  | _, [] => True
  | s, u :: us => (∃ r, u.result s = .ok r) ∧ AllReturn (regrid u.conn u.x u.inGrid u.outGrid u.method s).2 us

/-- The answer to the request is held in memory. -/
def Held (s : St S D) (gi go : GS) (m : List Char) : Prop :=
  s.mem.policy.hasCache = true ∧ ∃ it ∈ s.mem.items, it.key = S.world.key ⟨gi, go, m⟩

end

/-! ### Proofs -/

section
variable {α B D : Type} {S : Setting α B}

theorem create_counts (c : Conn B D) (server : String → Option B) (e : Index.Entry) (disk : Disk B D) (p : Csr α × List Nat)
    (h : (createFrom S c false server e disk).1 = .ok p) :
    (createFrom S c false server e disk).2.contacts.count .download = disk.contacts.count .download + 1 := by
  unfold createFrom loadMatrix at h ⊢
  cases hp : Index.matrixPath e with
  | error x => rw [hp] at h; cases h
  | ok path =>
    rw [hp] at h
    simp only at h ⊢
    unfold downloadAndCache at h ⊢
    cases hv : c.cfg "url-download-timeout" with
    | error x => rw [hv] at h; cases h
    | ok v =>
      rw [hv] at h
      simp only at h ⊢
      obtain ⟨s1, e1⟩ : ∃ s1, s1 = (if (c.downloader server (urlOf S path)).asksExtension then disk.ask .extension else disk) := ⟨_, rfl⟩
      have hcount : s1.contacts.count .download = disk.contacts.count .download := by
        rw [e1]; split
        · simp [Disk.ask]
        · rfl
      rw [← e1] at h ⊢
      rw [← hcount]
      cases hx : (c.downloader server (urlOf S path)).extension with
      | error x => rw [hx] at h; cases h
      | ok ext =>
        rw [hx] at h
        simp only at h ⊢
        cases hl : (c.downloader server (urlOf S path)).localPath with
        | some l => rw [hl] at h; cases h
        | none =>
          rw [hl] at h
          simp only [Bool.false_eq_true, if_false] at h ⊢
          unfold fetch at h ⊢
          cases hd : (c.downloader server (urlOf S path)).download with
          | error x => rw [hd] at h; cases h
          | ok b =>
            rw [hd] at h
            simp only [returned] at h ⊢
            split at h <;> rename_i heq
            · cases h
            · rename_i z disk'
              obtain ⟨h1, h2⟩ := Prod.mk.inj heq
              rw [← h2]
              cases shapeOf e <;> simp [Disk.ask]

/-- A lookup with both caches off that finds weights. -/
theorem find_off (c : Conn B D) (di dO : Dict) (m : List Char) (s : St S D) (hm : s.mem.policy = .off) (hd : s.db.w.managed = false) :
    (find c di dO m s).2.mem.policy = .off ∧ (find c di dO m s).2.db.w.managed = false ∧
    ∀ p, (find c di dO m s).1 = .ok (some p) → downloads (find c di dO m s).2 = downloads s + 1 := by
  unfold find
  cases hi : fromDict S.E.P di with
  | error e => exact ⟨hm, hd, fun p h => by cases h⟩
  | ok gi =>
    cases ho : fromDict S.E.P dO with
    | error e => exact ⟨hm, hd, fun p h => by cases h⟩
    | ok go =>
      simp only
      have hget : MemCache.get S.world.key S.sizeFn (source c s ⟨gi, go, m⟩) ⟨gi, go, m⟩ s.mem =
          (⟨(source c s ⟨gi, go, m⟩).create ⟨gi, go, m⟩, (source c s ⟨gi, go, m⟩).createCalls ⟨gi, go, m⟩⟩, s.mem) := by
        unfold MemCache.get
        rw [hm]
        rfl
      rw [hget]
      simp only
      unfold MemCache.Source.create MemCache.Source.createCalls
      have hman := findEntry_managed (reqOf ⟨gi, go, m⟩) s.db
      rw [hd] at hman
      cases hf : Index.findEntry (reqOf ⟨gi, go, m⟩) s.db with
      | mk r db =>
        rw [hf] at hman
        simp only at hman
        cases r with
        | error e =>
          simp only [source, hf, foundOut]
          refine ⟨hm, ?_, fun p h => by cases h⟩
          simp only [afterCalls, hf, hman]
        | ok r =>
          cases r with
          | none =>
            simp only [source, hf, foundOut, loadOut]
            refine ⟨hm, ?_, fun p h => by cases h⟩
            simp only [afterCalls, hf, hman]
          | some e =>
            simp only [source, hf, foundOut]
            generalize (some ⟨S.memory e, posOf (db.index.getD []) e.name⟩ : Option MemCache.Entry) = oe
            cases oe with
            | none =>
              simp only [loadOut]
              refine ⟨hm, ?_, fun p h => by cases h⟩
              simp only [afterCalls, hf, hman]
            | some me =>
              simp only [loadOut]
              cases hat : entryAt db me with
              | none =>
                refine ⟨hm, ?_, fun p h => by cases h⟩
                simp only [afterCalls, hf, hman]
              | some e' =>
                simp only [hman]
                have hcc := create_counts (S := S) c s.server e' s.disk
                cases hcf : createFrom S c false s.server e' s.disk with
                | mk r' disk' =>
                  rw [hcf] at hcc
                  cases r' with
                  | error x =>
                    refine ⟨hm, ?_, fun p h => by cases h⟩
                    simp only [afterCalls, hf, hman]
                  | ok q =>
                    refine ⟨hm, ?_, fun p _ => ?_⟩
                    · simp only [afterCalls, hf, hman]
                    · have := hcc q rfl
                      simp only [downloads, afterCalls, hf, loadOut, hat, hman, hcf]
                      exact this

/-- Something held is handed out without any call, and is still held. -/
theorem get_held {Q K W T : Type} [LinearOrder K] (key : Q → K) (sizeFn : W → Nat) (src : MemCache.Source Q W T) (q : Q) (s : MemCache.Cache K W T)
    (hp : s.policy.hasCache = true) (h : ∃ it ∈ s.items, it.key = key q) :
    (MemCache.get key sizeFn src q s).1.calls = [] ∧ (MemCache.get key sizeFn src q s).2.policy.hasCache = true ∧
      ∃ it ∈ (MemCache.get key sizeFn src q s).2.items, it.key = key q := by
  obtain ⟨it, hit, hk⟩ := h
  obtain ⟨it', hit'⟩ : ∃ it', s.items.find? (fun it => decide (it.key = key q)) = some it' := by
    cases hf : s.items.find? (fun it => decide (it.key = key q)) with
    | some it' => exact ⟨it', rfl⟩
    | none => exact absurd hk (by simpa using List.find?_eq_none.1 hf it hit)
  unfold MemCache.get
  simp only [hp, if_true, hit']
  refine ⟨trivial, trivial, it', ?_, by simpa using List.find?_some hit'⟩
  unfold MemCache.moveToEnd
  rw [hit']
  simp

/-- A lookup of what is held in memory. -/
theorem find_held (c : Conn B D) (di dO : Dict) (m : List Char) (s : St S D) (gi go : GS) (hi : fromDict S.E.P di = .ok gi) (ho : fromDict S.E.P dO = .ok go)
    (h : Held s gi go m) : (find c di dO m s).2.disk = s.disk ∧ Held (find c di dO m s).2 gi go m := by
  obtain ⟨h1, h2, h3⟩ := get_held S.world.key S.sizeFn (source c s ⟨gi, go, m⟩) ⟨gi, go, m⟩ s.mem h.1 h.2
  unfold find
  rw [hi, ho]
  simp only
  generalize MemCache.get S.world.key S.sizeFn (source c s ⟨gi, go, m⟩) ⟨gi, go, m⟩ s.mem = y at h1 h2 h3
  obtain ⟨⟨res, cs⟩, t⟩ := y
  simp only at h1 h2 h3
  subst h1
  cases res <;> exact ⟨rfl, h2, h3⟩

/-- In a new process, weights smaller than the limit are held after they are loaded. -/
theorem get_bare {Q K W T : Type} [LinearOrder K] (key : Q → K) (sizeFn : W → Nat) (src : MemCache.Source Q W T) (q : Q) (s : MemCache.Cache K W T)
    (hb : Bare s) (e : MemCache.Entry) (w : W) (sh : Option T) (he : src.findEntry q = .ok (some e)) (hl : src.createFromEntry (some e) = .ok (some w, sh))
    (hz : sizeFn w < 300 * 1024 * 1024) :
    (MemCache.get key sizeFn src q s).2.policy.hasCache = true ∧
      (MemCache.get key sizeFn src q s).2.items = [⟨key q, (some w, sh), sizeFn w⟩] := by
  have hc : MemCache.createWithPreCheck src q s = (⟨.ok (some w, sh), [.find q, .load (some e)]⟩, s) := by
    unfold MemCache.createWithPreCheck
    rw [he]
    simp only [hb.limit, hb.curr, hl]
    rw [if_neg (by omega)]
    simp [hb.strict]
  unfold MemCache.get
  simp only [hb.policy, MemCache.Policy.hasCache, MemCache.Policy.hasLimit, if_true, hb.items, List.find?_nil, hc, List.nil_append, hb.curr]
  unfold MemCache.reduce MemCache.check
  simp [hb.limit, MemCache.Policy.hasCache, MemCache.policyReduce, MemCache.sumSizes, MemCache.largestLoop]
  rw [if_neg (by omega)]

/-- The only thing held is handed out. -/
theorem get_single {Q K W T : Type} [LinearOrder K] (key : Q → K) (sizeFn : W → Nat) (src : MemCache.Source Q W T) (q : Q) (s : MemCache.Cache K W T)
    (hp : s.policy.hasCache = true) (it : MemCache.Item K W T) (hi : s.items = [it]) (hk : it.key = key q) :
    (MemCache.get key sizeFn src q s).1 = ⟨.ok it.data, []⟩ ∧ (MemCache.get key sizeFn src q s).2.policy.hasCache = true ∧
      (MemCache.get key sizeFn src q s).2.items = [it] := by
  unfold MemCache.get
  simp [hp, hi, hk, MemCache.moveToEnd, MemCache.delKey]

/-- Those weights are the only thing held. -/
def Only (s : St S D) (gi go : GS) (m : List Char) (z : Csr α) (sh : List Nat) : Prop :=
  s.mem.policy.hasCache = true ∧ s.mem.items = [⟨S.world.key ⟨gi, go, m⟩, (some z, some sh), S.sizeFn z⟩]

theorem find_only (c : Conn B D) (di dO : Dict) (m : List Char) (s : St S D) (gi go : GS) (hi : fromDict S.E.P di = .ok gi) (ho : fromDict S.E.P dO = .ok go)
    (z : Csr α) (sh : List Nat) (h : Only s gi go m z sh) :
    (find c di dO m s).1 = .ok (some (z, sh)) ∧ (find c di dO m s).2.disk = s.disk ∧ Only (find c di dO m s).2 gi go m z sh := by
  obtain ⟨h1, h2, h3⟩ := get_single S.world.key S.sizeFn (source c s ⟨gi, go, m⟩) ⟨gi, go, m⟩ s.mem h.1 _ h.2 rfl
  unfold find
  rw [hi, ho]
  simp only
  generalize MemCache.get S.world.key S.sizeFn (source c s ⟨gi, go, m⟩) ⟨gi, go, m⟩ s.mem = y at h1 h2 h3
  obtain ⟨y1, t⟩ := y
  simp only at h1 h2 h3
  subst h1
  exact ⟨rfl, rfl, h2, h3⟩

theorem find_mem (c : Conn B D) (di dO : Dict) (m : List Char) (s : St S D) (gi go : GS) (hi : fromDict S.E.P di = .ok gi) (ho : fromDict S.E.P dO = .ok go) :
    (find c di dO m s).2.mem = (MemCache.get S.world.key S.sizeFn (source c s ⟨gi, go, m⟩) ⟨gi, go, m⟩ s.mem).2 := by
  unfold find
  rw [hi, ho]
  simp only
  generalize MemCache.get S.world.key S.sizeFn (source c s ⟨gi, go, m⟩) ⟨gi, go, m⟩ s.mem = y
  obtain ⟨⟨res, cs⟩, t⟩ := y
  cases res <;> rfl

end

section
variable {α B D : Type} [CommRing α] {S : Setting α B}

/-- C161 (part): with the disk cache off and the in-memory cache off, each call that returns values downloads the weights once more:
`n` calls that return make the server send `n` files. -/
theorem C161_again_partial (us : List (Use α B D)) (s : St S D) (hm : s.mem.policy = .off) (hd : s.db.w.managed = false) (hr : AllReturn s us) :
    downloads (useAll s us) = downloads s + us.length := by
  induction us generalizing s with
  | nil => rfl
  | cons u us ih =>
    obtain ⟨⟨r, h1⟩, h2⟩ := hr
    obtain ⟨a1, a2⟩ := regrid_eq u.conn u.x u.inGrid u.outGrid u.method s
    obtain ⟨b1, b2, b3⟩ := find_off u.conn u.inGrid u.outGrid u.method s hm hd
    unfold useAll
    rw [ih _ (by rw [a1]; exact b1) (by rw [a1]; exact b2) h2, a1]
    unfold Use.result at h1
    rw [a2] at h1
    cases hf : (find u.conn u.inGrid u.outGrid u.method s).1 with
    | error e => rw [hf] at h1; cases h1
    | ok p =>
      cases p with
      | none => rw [hf] at h1; cases h1
      | some p =>
        rw [b3 p hf]
        simp only [List.length_cons]
        omega

theorem load_off (c : Conn B D) (server : String → Option B) (e : Index.Entry) (disk : Disk B D) (path : List Char) (b : B) (z : Csr α)
    (sh : List Nat) (hp : Index.matrixPath e = .ok path) (hs : server (urlOf S path) = some b) (hz : S.parse b = .ok z) (hsh : shapeOf e = .ok sh)
    (hc : Fine c (urlOf S path)) : ∃ disk', createFrom S c false server e disk = (.ok (z, sh), disk') := by
  obtain ⟨v, hv⟩ := hc.timeout
  obtain ⟨ext, hx⟩ := hc.extension
  have hdl : (c.downloader server (urlOf S path)).download = .ok b := by
    simp only [Conn.downloader, hc.up, hs, served]
  have hd : ∃ disk' l, downloadAndCache c.cfg S.CP false (c.downloader server (urlOf S path)) (weightsCall S path) disk = (.ok (some l), disk') ∧
      disk'.files l = some b := by
    unfold downloadAndCache
    rw [hv]
    have h1 : (c.downloader server (urlOf S path)).extension = .ok ext := hx
    have h2 : (c.downloader server (urlOf S path)).localPath = none := hc.remote
    simp only [h1, h2, Bool.false_eq_true, if_false, fetch, hdl, returned]
    exact ⟨_, _, rfl, by simp⟩
  obtain ⟨disk', l, h1, h2⟩ := hd
  exact ⟨disk', by simp only [createFrom, loadMatrix, hp, h1, loadFile, h2, hz, hsh]⟩

/-- C161 (part): with both caches off, the index read and the weights on the server, every call returns (so the calls counted above exist in any number). -/
theorem C161_off_returns_partial (f0 : Index.IndexFile) (us : List (Use α B D)) (s : St S D) (hm : s.mem.policy = .off) (hd : s.db.w.managed = false)
    (gi go : GS) (m : List Char) (ix : Index.Index) (hl : Index.load S.E.P f0 = .ok ix) (hix : s.db.index = some ix) (e : Index.Entry)
    (ha : Answers S.world ix gi go (Index.methodAlias m) e) (path : List Char) (hp : Index.matrixPath e = .ok path) (b : B)
    (hs : s.server (urlOf S path) = some b) (z : Csr α) (hz : S.parse b = .ok z) (shape : List Nat) (hsh : shapeOf e = .ok shape) (hn : shape.prod = z.rows)
    (hu : ∀ u ∈ us, Fine u.conn (urlOf S path) ∧ fromDict S.E.P u.inGrid = .ok gi ∧ fromDict S.E.P u.outGrid = .ok go ∧ u.method = m ∧
      u.x.flat.length = z.cols) : AllReturn s us := by
  induction us generalizing s with
  | nil => trivial
  | cons u us ih =>
    obtain ⟨hc, hi, ho, rfl, hx⟩ := hu u (by simp)
    have hfind := answers_find ix gi go u.inGrid u.outGrid hi ho u.method e ha
    obtain ⟨pre, k, post, hk, _⟩ := id ha
    have hk : (k, e) ∈ ix := by rw [hk]; simp
    have h1 : Index.findEntry (reqOf ⟨gi, go, u.method⟩) s.db = (.ok (some e), s.db) := by
      simp only [Index.findEntry, Index.ensureIndex, hix, Index.lookIn, Option.getD_some, hfind]
    obtain ⟨disk, h3⟩ := load_off u.conn s.server e s.disk path b z shape hp hs hz hsh hc
    obtain ⟨mem, h4⟩ := find_fresh u.conn u.inGrid u.outGrid u.method s gi go hi ho (.inr hm) s.db e k ix h1 hix (load_clean _ f0 ix hl) hk disk z shape
      (by rw [hd]; exact h3)
    obtain ⟨a1, a2⟩ := regrid_eq u.conn u.x u.inGrid u.outGrid u.method s
    obtain ⟨b1, _, _⟩ := find_off u.conn u.inGrid u.outGrid u.method s hm hd
    refine ⟨⟨(⟨shape, (List.range z.rows).map (z.dot u.x.flat)⟩, u.outGrid), ?_⟩, ih _ ?_ ?_ ?_ ?_ (fun u' h' => hu u' (by simp [h']))⟩
    · unfold Use.result
      rw [a2, h4]
      exact (apply_ok z shape u.x u.outGrid u.outGrid _).2 ⟨hx, hn, rfl, rfl⟩
    · rw [a1]; exact b1
    · rw [a1, h4]; exact hd
    · rw [a1, h4]; exact hix
    · rw [a1, h4]; exact hs

/-- C161: once the answer to a request is held in memory, calls for it leave the disk and the server alone, whatever the cache policy. -/
theorem C161_held (us : List (Use α B D)) (s : St S D) (gi go : GS) (m : List Char) (h : Held s gi go m)
    (hu : ∀ u ∈ us, fromDict S.E.P u.inGrid = .ok gi ∧ fromDict S.E.P u.outGrid = .ok go ∧ u.method = m) : (useAll s us).disk = s.disk := by
  induction us generalizing s with
  | nil => rfl
  | cons u us ih =>
    obtain ⟨hi, ho, rfl⟩ := hu u (by simp)
    obtain ⟨b1, b2⟩ := find_held u.conn u.inGrid u.outGrid u.method s gi go hi ho h
    have a1 := (regrid_eq u.conn u.x u.inGrid u.outGrid u.method s).1
    unfold useAll
    rw [ih _ (by rw [a1]; exact b2) (fun u' h' => hu u' (by simp [h'])), a1]
    exact b1

theorem only_returns (us : List (Use α B D)) (s : St S D) (gi go : GS) (m : List Char) (z : Csr α) (sh : List Nat) (h : Only s gi go m z sh)
    (hn : sh.prod = z.rows)
    (hu : ∀ u ∈ us, fromDict S.E.P u.inGrid = .ok gi ∧ fromDict S.E.P u.outGrid = .ok go ∧ u.method = m ∧ u.x.flat.length = z.cols) :
    AllReturn s us ∧ (useAll s us).disk = s.disk := by
  induction us generalizing s with
  | nil => exact ⟨trivial, rfl⟩
  | cons u us ih =>
    obtain ⟨hi, ho, rfl, hx⟩ := hu u (by simp)
    obtain ⟨b1, b2, b3⟩ := find_only u.conn u.inGrid u.outGrid u.method s gi go hi ho z sh h
    obtain ⟨a1, a2⟩ := regrid_eq u.conn u.x u.inGrid u.outGrid u.method s
    obtain ⟨c1, c2⟩ := ih (regrid u.conn u.x u.inGrid u.outGrid u.method s).2 (by rw [a1]; exact b3) (fun u' h' => hu u' (by simp [h']))
    refine ⟨⟨⟨(⟨sh, (List.range z.rows).map (z.dot u.x.flat)⟩, u.outGrid), ?_⟩, c1⟩, ?_⟩
    · unfold Use.result
      rw [a2, b1]
      exact (apply_ok z sh u.x u.outGrid u.outGrid _).2 ⟨hx, hn, rfl, rfl⟩
    · unfold useAll
      rw [c2, a1, b2]

/-- C161: with the in-memory cache as it is by default and the disk cache off, a process that asks for the same thing any number of times
gets its values each time and downloads the weights once; the network may be down after the first call. -/
theorem C161_once (f0 : Index.IndexFile) (sha0 : S.E.Sha) (server0 : String → Option B) (u : Use α B D) (us : List (Use α B D)) (gi go : GS) (m : List Char)
    (ix : Index.Index) (hl : Index.load S.E.P f0 = .ok ix) (e : Index.Entry) (ha : Answers S.world ix gi go (Index.methodAlias m) e) (path : List Char)
    (hp : Index.matrixPath e = .ok path) (hc : Fine u.conn (urlOf S path)) (b : B) (hs : server0 (urlOf S path) = some b) (z : Csr α)
    (hz : S.parse b = .ok z) (hsize : S.sizeFn z < 300 * 1024 * 1024) (shape : List Nat) (hsh : shapeOf e = .ok shape) (hn : shape.prod = z.rows)
    (hu : ∀ v ∈ u :: us, fromDict S.E.P v.inGrid = .ok gi ∧ fromDict S.E.P v.outGrid = .ok go ∧ v.method = m ∧ v.x.flat.length = z.cols) :
    AllReturn (start S f0 sha0 server0 false) (u :: us) ∧ downloads (useAll (start S f0 sha0 server0 false) (u :: us)) = 1 := by
  obtain ⟨hi, ho, rfl, hx⟩ := hu u (by simp)
  have hfind := answers_find ix gi go u.inGrid u.outGrid hi ho u.method e ha
  obtain ⟨pre, k, post, hix, _⟩ := ha
  have hk : (k, e) ∈ ix := by rw [hix]; simp
  obtain ⟨db, h1, h2, hman⟩ := first_find_off (D := D) f0 sha0 server0 _ ix e hl hfind
  obtain ⟨s, es⟩ : ∃ s : St S D, s = start S f0 sha0 server0 false := ⟨_, rfl⟩
  obtain ⟨disk, l, h3, _⟩ := load_new u.conn false server0 e s.disk path b z shape hp hs hz hsh hc (fun _ => by rw [es]; rfl)
  have hserver : s.server = server0 := by rw [es]; rfl
  have hmem : Bare s.mem := by rw [es]; exact bare_initial
  have hzero : s.disk.contacts.count .download = 0 := by rw [es]; rfl
  rw [← es] at h1 ⊢
  rw [← hserver] at h3
  obtain ⟨mem, h4⟩ := find_fresh u.conn u.inGrid u.outGrid u.method s gi go hi ho (.inl hmem) db e k ix h1 h2 (load_clean _ f0 ix hl) hk disk z shape
    (by rw [hman]; exact h3)
  have hcount := create_counts (S := S) u.conn s.server e s.disk (z, shape) (by rw [h3])
  rw [h3, hzero] at hcount
  have hmem' := find_mem u.conn u.inGrid u.outGrid u.method s gi go hi ho
  have hfo : (source u.conn s ⟨gi, go, u.method⟩).findEntry ⟨gi, go, u.method⟩ = .ok (some ⟨S.memory e, posOf (db.index.getD []) e.name⟩) := by
    simp only [source, reqOf, foundOut]
    rw [show Index.findEntry ⟨gi.d, go.d, u.method⟩ s.db = _ from h1]
  have hlo : (source u.conn s ⟨gi, go, u.method⟩).createFromEntry (some ⟨S.memory e, posOf (db.index.getD []) e.name⟩) = .ok (some z, some shape) := by
    simp only [source]
    rw [show Index.findEntry (reqOf ⟨gi, go, u.method⟩) s.db = _ from h1]
    simp only [loadOut, entryAt, h2, Option.getD_some, getElem_posOf S.world ix (load_clean _ f0 ix hl) k e hk, Option.map_some, hman, h3]
  have honly : Only (find u.conn u.inGrid u.outGrid u.method s).2 gi go u.method z shape := by
    obtain ⟨g1, g2⟩ := get_bare S.world.key S.sizeFn (source u.conn s ⟨gi, go, u.method⟩) ⟨gi, go, u.method⟩ s.mem hmem _ z (some shape) hfo hlo hsize
    exact ⟨by rw [hmem']; exact g1, by rw [hmem']; exact g2⟩
  obtain ⟨a1, a2⟩ := regrid_eq u.conn u.x u.inGrid u.outGrid u.method s
  obtain ⟨c1, c2⟩ := only_returns us (regrid u.conn u.x u.inGrid u.outGrid u.method s).2 gi go u.method z shape (by rw [a1]; exact honly) hn
    (fun u' h' => hu u' (by simp [h']))
  refine ⟨⟨⟨(⟨shape, (List.range z.rows).map (z.dot u.x.flat)⟩, u.outGrid), ?_⟩, c1⟩, ?_⟩
  · unfold Use.result
    rw [a2, h4]
    exact (apply_ok z shape u.x u.outGrid u.outGrid _).2 ⟨hx, hn, rfl, rfl⟩
  · unfold downloads useAll
    rw [c2, a1, h4]
    exact hcount

end

/-! ### Examples -/

namespace Demo
open Verif.Regrid.Demo
open Verif.Index (orca orcaSpec orca_fromDict)

def call (c : Conn Bool Nat) : Use ℚ Bool Nat := ⟨c, ⟨[2], [10, 20]⟩, orca (some shape), orca (some shape), "nn".toList⟩

/-- The network is gone. -/
def down : Conn Bool Nat := { conn with up := false }

/-- C161 refuted: the same call twice; both return values, the second without the network, and there is one download. -/
theorem C161_refuted (P : Py) :
    AllReturn (start (setting P) indexFile () (files true) false) [call conn, call down] ∧
      downloads (useAll (start (setting P) indexFile () (files true) false) [call conn, call down]) = 1 :=
  C161_once (S := setting P) indexFile () (files true) (call conn) [call down] _ _ "nn".toList _ (load_ok P) entry (answers P) _ path_ok (fine _) true
    (by rw [url_ok]; simp [files]) demo rfl (show (50 : Nat) < _ by norm_num) [3, 1] rfl rfl
    (fun v hv => by
      have : v = call conn ∨ v = call down := by simpa using hv
      rcases this with rfl | rfl <;> exact ⟨orca_fromDict P _, orca_fromDict P _, rfl, rfl⟩)

/-- Both caches off, the index read. -/
noncomputable def off (P : Py) : St (setting P) Nat :=
  let s : St (setting P) Nat := start (setting P) indexFile () (files true) false
  { s with db := { s.db with index := some inventory.index }, mem := { s.mem with policy := .off } }

/-- The in-memory cache on, with these weights in it. -/
noncomputable def full (P : Py) (z : Csr ℚ) : St (setting P) Nat :=
  let s : St (setting P) Nat := start (setting P) indexFile () (files true) false
  { s with mem := { s.mem with
      items := [⟨(setting P).world.key ⟨orcaSpec (some shape), orcaSpec (some shape), "nn".toList⟩, (some z, some [3, 1]), 50⟩] } }

/-- Three calls that return, three downloads. -/
example (P : Py) : downloads (useAll (off P) [call conn, call conn, call conn]) = 3 := by
  rw [C161_again_partial _ (off P) rfl rfl]
  · rfl
  · refine C161_off_returns_partial (S := setting P) indexFile _ (off P) rfl rfl _ _ "nn".toList _ (load_ok P) rfl entry (answers P) _ path_ok true
      (by rw [url_ok]; simp [off, start, files]) demo rfl [3, 1] rfl rfl (fun v hv => ?_)
    have : v = call conn := by simpa using hv
    subst this
    exact ⟨fine _, orca_fromDict P _, orca_fromDict P _, rfl, rfl⟩

/-- `C161_once`: the network goes down after the first of three calls. -/
example (P : Py) : downloads (useAll (start (setting P) indexFile () (files true) false) [call conn, call down, call down]) = 1 :=
  (C161_once (S := setting P) indexFile () (files true) (call conn) [call down, call down] _ _ "nn".toList _ (load_ok P) entry (answers P) _ path_ok
    (fine _) true (by rw [url_ok]; simp [files]) demo rfl (show (50 : Nat) < _ by norm_num) [3, 1] rfl rfl
    (fun v hv => by
      have : v = call conn ∨ v = call down := by simpa using hv
      rcases this with rfl | rfl <;> exact ⟨orca_fromDict P _, orca_fromDict P _, rfl, rfl⟩)).2

/-- Something held in memory and an empty disk: the calls leave it empty. -/
example (P : Py) (z : Csr ℚ) : (useAll (full P z) [call down, call conn]).disk = (full P z).disk :=
  C161_held (S := setting P) _ _ (orcaSpec (some shape)) (orcaSpec (some shape)) "nn".toList ⟨rfl, _, List.mem_singleton.2 rfl, rfl⟩ (fun v hv => by
    have : v = call down ∨ v = call conn := by simpa using hv
    rcases this with rfl | rfl <;> exact ⟨orca_fromDict P _, orca_fromDict P _, rfl⟩)

end Demo

end Verif.Remote
