import Verif.Remote.Props
import Verif.Regrid.Props3
import Verif.DiskCache.DownloadProps

/-! # C98: whether the weights are those that are on the server now -/

namespace Verif.Remote
open Verif.GridSpec Verif.Regrid Verif.DiskCache.Download

variable {α B D : Type} {S : Setting α B}

/-- The settings and the network are in order for that URL: reachable, an ordinary web address with a known extension. -/
structure Fine (c : Conn B D) (url : String) : Prop where
  up : c.up = true
  timeout : ∃ v, c.cfg "url-download-timeout" = .ok v
  extension : ∃ x, c.extension url = .ok x
  remote : c.localPath url = none

/-- Newer versions at that URL are not fetched: URLs are not checked, or they are but newer versions are not wanted (both are defaults). -/
def NoNewer (S : Setting α B) (c : Conn B D) (url : String) : Prop :=
  CheckOff c.cfg ∨ (∃ x, c.cfg "check-out-of-date-urls" = .ok x) ∧ (∃ y, c.cfg "download-out-of-date-urls" = .ok y ∧ Config.truthy S.CP y = false) ∧
    ∀ old data, ∃ b, c.outOfDate url old data = .ok b

/-- Nothing is in the in-memory cache and its settings are the ones of the start. -/
structure Bare {K W T : Type} (m : MemCache.Cache K W T) : Prop where
  items : m.items = []
  curr : m.currMem = 0
  strict : m.strict = false
  limit : m.maxMem = some (300 * 1024 * 1024)
  policy : m.policy = .largest

theorem Bare.acc {K W T : Type} {m : MemCache.Cache K W T} (h : Bare m) : MemCache.Acc m := by
  have : MemCache.Acc (MemCache.initial : MemCache.Cache K W T) := MemCache.initial_acc
  unfold MemCache.Acc at this ⊢
  rw [h.items, h.curr]
  exact this

theorem bare_initial {K W T : Type} : Bare (MemCache.initial : MemCache.Cache K W T) := ⟨rfl, rfl, rfl, rfl, rfl⟩

/-- A lookup in a process whose in-memory cache is as at the start, or off. -/
theorem find_fresh (c : Conn B D) (di dO : Dict) (m : List Char) (s : St S D) (gi go : GS) (hi : fromDict S.E.P di = .ok gi)
    (ho : fromDict S.E.P dO = .ok go) (hm : Bare s.mem ∨ s.mem.policy = .off) (db : Index.Db S.E) (e : Index.Entry) (k : String) (ix : Index.Index)
    (hf : Index.findEntry (reqOf ⟨gi, go, m⟩) s.db = (.ok (some e), db)) (hx : db.index = some ix) (hc : Index.Clean S.E.P ix) (hk : (k, e) ∈ ix)
    (disk : Disk B D) (z : Csr α) (sh : List Nat) (hl : createFrom S c db.w.managed s.server e s.disk = (.ok (z, sh), disk)) :
    ∃ mem, find c di dO m s = (.ok (some (z, sh)), { s with db := db, disk := disk, mem := mem }) := by
  have hfo : (source c s ⟨gi, go, m⟩).findEntry ⟨gi, go, m⟩ = .ok (some ⟨S.memory e, posOf (db.index.getD []) e.name⟩) := by
    simp only [source, hf, foundOut]
  have hlo : loadOut c db s (some ⟨S.memory e, posOf (db.index.getD []) e.name⟩) = (.ok (some z, some sh), disk) := by
    simp only [loadOut, entryAt, hx, Option.getD_some, getElem_posOf S.world ix hc k e hk, Option.map_some, hl]
  have hcr : (source c s ⟨gi, go, m⟩).create ⟨gi, go, m⟩ = .ok (some z, some sh) := by
    unfold MemCache.Source.create
    rw [hfo]
    simp only [source, hf, hlo]
  have hcc : (source c s ⟨gi, go, m⟩).createCalls ⟨gi, go, m⟩ = [.find ⟨gi, go, m⟩, .load (some ⟨S.memory e, posOf (db.index.getD []) e.name⟩)] := by
    unfold MemCache.Source.createCalls
    rw [hfo]
  have hget : (MemCache.get S.world.key S.sizeFn (source c s ⟨gi, go, m⟩) ⟨gi, go, m⟩ s.mem).1 =
      ⟨.ok (some z, some sh), [.find ⟨gi, go, m⟩, .load (some ⟨S.memory e, posOf (db.index.getD []) e.name⟩)]⟩ := by
    rcases hm with hm | hm
    · have hg := MemCache.get_cases S.world.key S.sizeFn (source c s ⟨gi, go, m⟩) ⟨gi, go, m⟩ s.mem hm.acc
      have hbad : ∃ m, s.mem.maxMem = some m ∧ 0 < m := ⟨_, hm.limit, by norm_num⟩
      generalize (MemCache.get S.world.key S.sizeFn (source c s ⟨gi, go, m⟩) ⟨gi, go, m⟩ s.mem).1 = o at hg
      generalize (MemCache.get S.world.key S.sizeFn (source c s ⟨gi, go, m⟩) ⟨gi, go, m⟩ s.mem).2 = s' at hg
      cases hg with
      | off => rw [hcr, hcc]
      | hit _ l1 it l2 hit => rw [hm.items] at hit; cases l1 <;> cases hit
      | limErr _ _ _ _ _ _ _ _ he =>
        rcases he with ⟨he, _⟩ | ⟨_, _, _, ⟨_, he, _⟩ | ⟨he, _⟩⟩
        · rw [hcr] at he; cases he
        · rw [hm.strict] at he; cases he
        · exact absurd hbad he
      | limBad _ _ _ _ _ he => exact absurd hbad he
      | unlErr _ _ _ he => rw [hcr] at he; cases he
      | unlNone _ _ _ he => rw [hcr] at he; cases he
      | unlSome _ _ _ _ he => rw [hcr] at he; cases he; rw [hcc]
      | limNone _ _ _ _ _ _ _ he => rw [hcr] at he; cases he
      | limSome _ _ _ _ _ _ _ _ he => rw [hcr] at he; cases he; rw [hcc]
    · unfold MemCache.get
      rw [hm]
      simp only [MemCache.Policy.hasCache, Bool.false_eq_true, if_false, hcr, hcc]
  unfold find
  rw [hi, ho]
  simp only
  generalize MemCache.get S.world.key S.sizeFn (source c s ⟨gi, go, m⟩) ⟨gi, go, m⟩ s.mem = y at hget
  obtain ⟨o, t⟩ := y
  simp only at hget
  subst hget
  refine ⟨t, ?_⟩
  simp only [ofPair, afterCalls, hf, hlo]

/-- The inventory object after the first lookup. -/
def firstDb (S : Setting α B) (f0 : Index.IndexFile) (sha0 : S.E.Sha) (ix : Option Index.Index) (log : List Index.Access) (path : Option Index.IndexPath) : Index.Db S.E :=
  ⟨⟨f0, sha0, true, true, some (f0, some (S.E.shaOf f0)), true, fun _ => none, 0, log⟩, path, false, ix⟩

theorem first_find (f0 : Index.IndexFile) (sha0 : S.E.Sha) (server0 : String → Option B) (r : Index.Req) (ix : Index.Index) (e : Index.Entry)
    (hl : Index.load S.E.P f0 = .ok ix) (hf : Index.find S.E.P S.E.order ix r.input r.output (Index.methodAlias r.method) = .ok (some e)) :
    Index.findEntry r (start S f0 sha0 server0 true : St S D).db = (.ok (some e), firstDb S f0 sha0 (some ix) [.index] (some .cache)) := by
  simp [Index.findEntry, Index.ensureIndex, Index.loadIndex, Index.indexPath, Index.getIndex, Index.createCached, Index.fetchIndex, start,
    Index.World.read, hl, Index.lookIn, hf, firstDb]

theorem first_find_off (f0 : Index.IndexFile) (sha0 : S.E.Sha) (server0 : String → Option B) (r : Index.Req) (ix : Index.Index) (e : Index.Entry)
    (hl : Index.load S.E.P f0 = .ok ix) (hf : Index.find S.E.P S.E.order ix r.input r.output (Index.methodAlias r.method) = .ok (some e)) :
    ∃ db, Index.findEntry r (start S f0 sha0 server0 false : St S D).db = (.ok (some e), db) ∧ db.index = some ix ∧ db.w.managed = false := by
  simp [Index.findEntry, Index.ensureIndex, Index.loadIndex, Index.indexPath, Index.getIndex, Index.fetchIndex, start,
    Index.World.read, hl, Index.lookIn, hf]

theorem second_find (f0 : Index.IndexFile) (sha0 : S.E.Sha) (log : List Index.Access) (r : Index.Req) (ix : Index.Index) (e : Index.Entry)
    (hl : Index.load S.E.P f0 = .ok ix) (hf : Index.find S.E.P S.E.order ix r.input r.output (Index.methodAlias r.method) = .ok (some e)) :
    Index.findEntry r (firstDb S f0 sha0 none log none) = (.ok (some e), firstDb S f0 sha0 (some ix) log (some .cache)) := by
  simp [Index.findEntry, Index.ensureIndex, Index.loadIndex, Index.indexPath, Index.getIndex, Index.createCached, Index.forceOf,
    Index.World.read, hl, Index.lookIn, hf, firstDb]

/-- Loading weights that are not in the disk cache. -/
theorem load_new (c : Conn B D) (managed : Bool) (server : String → Option B) (e : Index.Entry) (disk : Disk B D) (path : List Char) (b : B) (z : Csr α)
    (sh : List Nat) (hp : Index.matrixPath e = .ok path) (hs : server (urlOf S path) = some b) (hz : S.parse b = .ok z) (hsh : shapeOf e = .ok sh)
    (hc : Fine c (urlOf S path)) (he : ∀ l, disk.files l = none) :
    ∃ disk' l, createFrom S c managed server e disk = (.ok (z, sh), disk') ∧ disk'.files l = some b ∧
      (managed = true → ∃ ext, c.extension (urlOf S path) = .ok ext ∧ l = (weightsCall S path).loc ext) := by
  obtain ⟨v, hv⟩ := hc.timeout
  obtain ⟨ext, hx⟩ := hc.extension
  have hdl : (c.downloader server (urlOf S path)).download = .ok b := by
    simp only [Conn.downloader, hc.up, hs, served]
  have hd : ∃ disk' l, downloadAndCache c.cfg S.CP managed (c.downloader server (urlOf S path)) (weightsCall S path) disk = (.ok (some l), disk') ∧
      disk'.files l = some b ∧ (managed = true → l = (weightsCall S path).loc ext) := by
    unfold downloadAndCache
    rw [hv]
    have h1 : (c.downloader server (urlOf S path)).extension = .ok ext := hx
    have h2 : (c.downloader server (urlOf S path)).localPath = none := hc.remote
    simp only [h1, h2]
    obtain ⟨s1, e1⟩ : ∃ s1, s1 = (if (c.downloader server (urlOf S path)).asksExtension then disk.ask .extension else disk) := ⟨_, rfl⟩
    rw [← e1]
    have he1 : ∀ l, s1.files l = none := by intro l; rw [e1]; split <;> exact he l
    cases managed with
    | true =>
      simp only [if_true, cacheFileAt, he1, fetch, hdl, returned]
      exact ⟨_, _, rfl, by simp, fun _ => rfl⟩
    | false =>
      simp only [Bool.false_eq_true, if_false, fetch, hdl, returned]
      exact ⟨_, _, rfl, by simp, fun h => by cases h⟩
  obtain ⟨disk', l, h1, h2, h3⟩ := hd
  refine ⟨disk', l, ?_, h2, fun h => ⟨ext, hx, h3 h⟩⟩
  simp only [createFrom, loadMatrix, hp, h1, loadFile, h2, hz, hsh]

/-- Loading weights that are in the disk cache, when newer ones are not fetched. -/
theorem load_old (c : Conn B D) (server : String → Option B) (e : Index.Entry) (disk : Disk B D) (path : List Char) (b : B) (z : Csr α) (sh : List Nat)
    (hp : Index.matrixPath e = .ok path) (hz : S.parse b = .ok z) (hsh : shapeOf e = .ok sh) (v : Config.V) (hv : c.cfg "url-download-timeout" = .ok v)
    (ext : String) (hx : c.extension (urlOf S path) = .ok ext) (hr : c.localPath (urlOf S path) = none)
    (hcheck : NoNewer S c (urlOf S path)) (hf : disk.files ((weightsCall S path).loc ext) = some b) :
    ∃ disk', createFrom S c true server e disk = (.ok (z, sh), disk') := by
  have hd : ∃ disk', downloadAndCache c.cfg S.CP true (c.downloader server (urlOf S path)) (weightsCall S path) disk =
      (.ok (some ((weightsCall S path).loc ext)), disk') ∧ disk'.files ((weightsCall S path).loc ext) = some b := by
    unfold downloadAndCache
    rw [hv]
    have h1 : (c.downloader server (urlOf S path)).extension = .ok ext := hx
    have h2 : (c.downloader server (urlOf S path)).localPath = none := hr
    simp only [h1, h2]
    obtain ⟨s1, e1⟩ : ∃ s1, s1 = (if (c.downloader server (urlOf S path)).asksExtension then disk.ask .extension else disk) := ⟨_, rfl⟩
    rw [← e1]
    have he1 : s1.files ((weightsCall S path).loc ext) = some b := by rw [e1]; split <;> exact hf
    have he1' : s1.files (.keyed (weightsCall S path).owner (weightsCall S path).url (weightsCall S path).parts ext) = some b := he1
    have hfo : (weightsCall S path).force = .default := rfl
    have hfu : (weightsCall S path).updateFlag = false := rfl
    have hdec : ∀ data, ∃ s2, outOfDate c.cfg S.CP (c.downloader server (urlOf S path)) false b data s1 = (.ok false, s2) ∧ s2.files = s1.files := by
      intro data
      unfold outOfDate
      rcases hcheck with hoff | ⟨⟨xv, hxv⟩, ⟨yv, hy, hy'⟩, hasks⟩
      · unfold CheckOff at hoff
        rw [hoff]
        exact ⟨s1, rfl, rfl⟩
      · rw [hxv]
        simp only
        split
        · exact ⟨s1, rfl, rfl⟩
        · obtain ⟨r, hr⟩ := hasks b data
          have hr' : (c.downloader server (urlOf S path)).outOfDate b data = .ok r := hr
          rw [hr']
          cases r with
          | false => exact ⟨_, rfl, rfl⟩
          | true =>
            simp only [hy, hy', Bool.false_or]
            exact ⟨_, rfl, rfl⟩
    obtain ⟨s2, h3, h4⟩ := hdec (s1.data (.keyed (weightsCall S path).owner (weightsCall S path).url (weightsCall S path).parts ext))
    refine ⟨s2, ?_, by rw [h4]; exact he1⟩
    simp only [if_true, cacheFileAt, he1', hfo, hfu, decide', h3, returned]
    rfl
  obtain ⟨disk', h1, h2⟩ := hd
  refine ⟨disk', ?_⟩
  simp only [createFrom, loadMatrix, hp, h1, loadFile, h2, hz, hsh]

/-- What the request finds in the index. -/
theorem answers_find (ix : Index.Index) (gi go : GS) (di dO : Dict) (hi : fromDict S.E.P di = .ok gi) (ho : fromDict S.E.P dO = .ok go)
    (m : List Char) (e : Index.Entry) (ha : Answers S.world ix gi go (Index.methodAlias m) e) :
    Index.find S.E.P S.E.order ix (reqOf ⟨gi, go, m⟩).input (reqOf ⟨gi, go, m⟩).output (Index.methodAlias (reqOf ⟨gi, go, m⟩).method) = .ok (some e) :=
  (Index.C39_first_match S.E.P S.E.order ix gi.d go.d _ gi go (C31_idempotent _ _ _ hi) (C31_idempotent _ _ _ ho) e).2 ha

/-- A lookup does not change the policy. -/
theorem findEntry_managed {E : Index.Env} (r : Index.Req) (s : Index.Db E) : (Index.findEntry r s).2.w.managed = s.w.managed := by
  have h1 : ∀ s : Index.Db E, (Index.remoteSha s).2.w.managed = s.w.managed := by
    intro s; unfold Index.remoteSha; simp only; split <;> rfl
  have h2 : ∀ s : Index.Db E, (Index.fetchIndex s).2.w.managed = s.w.managed := by
    intro s; unfold Index.fetchIndex; simp only; split <;> rfl
  have h3 : ∀ f o (s : Index.Db E), (Index.forceOf f o s).2.w.managed = s.w.managed := by
    intro f o s
    have hr := h1 s
    cases f with
    | no => rfl
    | compare =>
      cases o with
      | none => rfl
      | some l =>
        simp only [Index.forceOf]
        generalize Index.remoteSha s = x at hr
        obtain ⟨x, s1⟩ := x
        cases x <;> exact hr
    | force =>
      simp only [Index.forceOf]
      generalize Index.remoteSha s = x at hr
      obtain ⟨x, s1⟩ := x
      cases x <;> exact hr
  have h4 : ∀ s : Index.Db E, (Index.createCached s).2.w.managed = s.w.managed := by
    intro s
    unfold Index.createCached
    cases s.w.cached with
    | some p => rfl
    | none =>
      simp only
      have hr := h2 s
      generalize Index.fetchIndex s = x at hr
      obtain ⟨x, s1⟩ := x
      cases x <;> exact hr
  have h5 : ∀ f (s : Index.Db E), (Index.getIndex f s).2.w.managed = s.w.managed := by
    intro f s
    unfold Index.getIndex
    split
    · cases s.w.cached with
      | none => exact h4 s
      | some p =>
        obtain ⟨c, o⟩ := p
        simp only
        have hr := h3 f o s
        generalize Index.forceOf f o s = x at hr
        obtain ⟨x, s1⟩ := x
        cases x with
        | error e => exact hr
        | ok b =>
          cases b with
          | true => exact (h4 _).trans hr
          | false => exact (h4 _).trans hr
    · have hr := h2 s
      generalize Index.fetchIndex s = x at hr
      obtain ⟨x, s1⟩ := x
      cases x <;> exact hr
  have h6 : ∀ s : Index.Db E, (Index.loadIndex s).2.w.managed = s.w.managed := by
    intro s
    have hp : (Index.indexPath { s with index := some [] }).2.w.managed = s.w.managed := by
      unfold Index.indexPath
      split
      · rfl
      · have hr := h5 .no { s with index := some [] }
        generalize Index.getIndex .no { s with index := some [] } = x at hr
        obtain ⟨x, s1⟩ := x
        cases x <;> exact hr
    unfold Index.loadIndex
    generalize Index.indexPath { s with index := some [] } = x at hp
    obtain ⟨x, s1⟩ := x
    cases x with
    | error e => exact hp
    | ok p =>
      simp only
      cases s1.w.read p with
      | none => exact hp
      | some f =>
        simp only
        cases Index.load E.P f <;> exact hp
  have h7 : (Index.ensureIndex s).2.w.managed = s.w.managed := by
    unfold Index.ensureIndex
    split
    · rfl
    · exact h6 s
  unfold Index.findEntry
  generalize Index.ensureIndex s = x at h7
  obtain ⟨x, s1⟩ := x
  cases x with
  | some e => exact h7
  | none =>
    simp only
    cases Index.lookIn r s1 with
    | error e => exact h7
    | ok v =>
      cases v with
      | some e => exact h7
      | none =>
        simp only
        split
        · exact h7
        · have h8 : (Index.reload .compare s1).2.w.managed = s1.w.managed := by
            have hr := h5 .compare s1
            unfold Index.reload
            generalize Index.getIndex .compare s1 = x at hr
            obtain ⟨x, s2⟩ := x
            cases x <;> exact hr
          generalize Index.reload .compare s1 = x at h8
          obtain ⟨x, s2⟩ := x
          cases x with
          | some e => exact h8.trans h7
          | none =>
            simp only
            have h9 := h6 s2
            generalize Index.loadIndex s2 = x at h9
            obtain ⟨x, s3⟩ := x
            cases x <;> exact h9.trans (h8.trans h7)

/-- The index of the inventory object is always one that was loaded. -/
theorem run_idx [Zero α] [Add α] [Mul α] : ∀ (h : List (Op S D)) (s : St S D), IdxOk (fun _ => True) s.db → IdxOk (fun _ => True) (run s h).db := by
  intro h
  induction h with
  | nil => intro s hs; exact hs
  | cons o h ih =>
    intro s hs
    refine ih (step s o) ?_
    cases o with
    | regrid c x di dO m =>
      simp only [step, (regrid_eq c x di dO m s).1]
      unfold find
      cases fromDict S.E.P di with
      | error e => exact hs
      | ok gi =>
        cases fromDict S.E.P dO with
        | error e => exact hs
        | ok go =>
          simp only
          have ha : ∀ cs, IdxOk (fun _ => True) (afterCalls c s ⟨gi, go, m⟩ cs).db := by
            intro cs
            have hf := findEntry_ok (fun _ => True) (reqOf ⟨gi, go, m⟩) s.db hs
            unfold afterCalls
            split
            · exact hs
            · exact hf
            · exact hf
            · exact hs
          generalize MemCache.get S.world.key S.sizeFn (source c s ⟨gi, go, m⟩) ⟨gi, go, m⟩ s.mem = y
          obtain ⟨⟨res, cs⟩, t⟩ := y
          cases res <;> exact ha cs
    | session o => exact sessionStep_ok _ o s.db hs (fun _ _ _ => trivial)
    | restart => exact ⟨trivial, fun _ _ => trivial, fun _ _ _ => trivial, fun ix e => by cases e⟩
    | _ => exact hs

/-- URLs are checked, newer versions are fetched, and the check is right about the files on the server. -/
structure Checking (S : Setting α B) (c : Conn B D) (server : String → Option B) : Prop where
  check : ¬CheckOff c.cfg
  fetch : ∃ y, c.cfg "download-out-of-date-urls" = .ok y ∧ Config.truthy S.CP y = true
  right : ∀ url old data b, c.outOfDate url old data = .ok b → (b = false ↔ server url = some old)

theorem fetch_now (dl : Downloader B D) (l : Loc) (s : Disk B D) (l' : Loc) (h : (fetch dl l s).1 = .ok l') :
    ∃ b, dl.download = .ok b ∧ (fetch dl l s).2.files l' = some b := by
  unfold fetch at h ⊢
  cases hd : dl.download with
  | error e => rw [hd] at h; cases h
  | ok b => rw [hd] at h; cases h; exact ⟨b, rfl, by simp⟩

theorem loadMatrix_now (S : Setting α B) (c : Conn B D) (managed : Bool) (server : String → Option B) (e : Index.Entry) (disk : Disk B D)
    (hc : Checking S c server ∨ managed = false) (z : Csr α) (hz : (loadMatrix S c managed server e disk).1 = .ok z) :
    ∃ path b, Index.matrixPath e = .ok path ∧ server (urlOf S path) = some b ∧ S.parse b = .ok z := by
  unfold loadMatrix at hz
  cases hp : Index.matrixPath e with
  | error x => rw [hp] at hz; cases hz
  | ok path =>
    rw [hp] at hz
    simp only at hz
    have key : ∀ l, (downloadAndCache c.cfg S.CP managed (c.downloader server (urlOf S path)) (weightsCall S path) disk).1 = .ok (some l) →
        ∀ b, (downloadAndCache c.cfg S.CP managed (c.downloader server (urlOf S path)) (weightsCall S path) disk).2.files l = some b →
        server (urlOf S path) = some b := by
      have hserved : ∀ b, (c.downloader server (urlOf S path)).download = .ok b → server (urlOf S path) = some b := fun b hb => served_ok hb
      unfold downloadAndCache
      cases c.cfg "url-download-timeout" with
      | error x => exact fun l h => by cases h
      | ok v =>
        simp only
        obtain ⟨s1, e1⟩ : ∃ s1, s1 = (if (c.downloader server (urlOf S path)).asksExtension then disk.ask .extension else disk) := ⟨_, rfl⟩
        rw [← e1]
        cases (c.downloader server (urlOf S path)).extension with
        | error x => exact fun l h => by cases h
        | ok ext =>
          simp only
          cases (c.downloader server (urlOf S path)).localPath with
          | some p => exact fun l h => by cases h
          | none =>
            simp only
            have hret : ∀ w : Except DErr Loc × Disk B D, (∀ l, w.1 = .ok l → ∀ b, w.2.files l = some b → server (urlOf S path) = some b) →
                ∀ l, (returned w).1 = .ok (some l) → ∀ b, (returned w).2.files l = some b → server (urlOf S path) = some b := by
              rintro ⟨w, s2⟩ hw l hl b hb
              cases w with
              | error x => cases hl
              | ok l' => cases hl; exact hw l rfl b hb
            apply hret
            have hfetch : ∀ l s, ∀ l', (fetch (c.downloader server (urlOf S path)) l s).1 = .ok l' → ∀ b,
                (fetch (c.downloader server (urlOf S path)) l s).2.files l' = some b → server (urlOf S path) = some b := by
              intro l s l' h b hb
              obtain ⟨b', h1, h2⟩ := fetch_now _ l s l' h
              rw [h2] at hb
              cases hb
              exact hserved _ h1
            cases managed with
            | false => simp only [Bool.false_eq_true, if_false]; exact hfetch _ _
            | true =>
              obtain ⟨k1, ⟨yv, k2, k2'⟩, k3⟩ := hc.resolve_right (by simp)
              simp only [if_true]
              unfold cacheFileAt
              obtain ⟨l0, el⟩ : ∃ l0, l0 = Loc.keyed (weightsCall S path).owner (weightsCall S path).url (weightsCall S path).parts ext := ⟨_, rfl⟩
              rw [← el]
              cases hold : s1.files l0 with
              | none => exact hfetch _ _
              | some old =>
                have hforce : (weightsCall S path).force = .default := rfl
                simp only [hforce, decide', outOfDate]
                cases hck : c.cfg "check-out-of-date-urls" with
                | error x => exact fun l h => by cases h
                | ok xv =>
                  simp only
                  have hx : xv ≠ .bool false := fun h => k1 (by unfold CheckOff; rw [hck, h])
                  rw [if_neg hx]
                  cases ho : (c.downloader server (urlOf S path)).outOfDate old (s1.data l0) with
                  | error x => exact fun l h => by cases h
                  | ok r =>
                    cases r with
                    | false =>
                      simp only
                      intro l h b hb
                      cases h
                      have : s1.files l0 = some b := hb
                      rw [hold] at this
                      cases this
                      exact (k3 _ _ _ _ ho).1 rfl
                    | true =>
                      simp only [k2, k2', Bool.true_or]
                      exact hfetch _ _
    generalize downloadAndCache c.cfg S.CP managed (c.downloader server (urlOf S path)) (weightsCall S path) disk = w at hz key
    obtain ⟨w, d1⟩ := w
    cases w with
    | error x => cases hz
    | ok l =>
      cases l with
      | none => cases hz
      | some l =>
        simp only [loadFile] at hz
        cases hb : d1.files l with
        | none => rw [hb] at hz; cases hz
        | some b => rw [hb] at hz; exact ⟨path, b, rfl, key l rfl b hb, hz⟩

section
variable {α B D : Type} [CommRing α] {S : Setting α B}

/-- C98 (part): on a new installation that reaches the server, with the disk cache or without, a request that the index on the server answers
with an entry whose weights are there is served, with those weights. -/
theorem C98_first_use_partial (f0 : Index.IndexFile) (sha0 : S.E.Sha) (server0 : String → Option B) (managed0 : Bool) (c : Conn B D) (x : Arr α) (di dO : Dict)
    (m : List Char) (gi go : GS) (hi : fromDict S.E.P di = .ok gi) (ho : fromDict S.E.P dO = .ok go) (ix : Index.Index)
    (hl : Index.load S.E.P f0 = .ok ix) (e : Index.Entry) (ha : Answers S.world ix gi go (Index.methodAlias m) e) (path : List Char)
    (hp : Index.matrixPath e = .ok path) (hc : Fine c (urlOf S path)) (b : B) (hs : server0 (urlOf S path) = some b) (z : Csr α)
    (hz : S.parse b = .ok z) (shape : List Nat) (hsh : shapeOf e = .ok shape) (hx : x.flat.length = z.cols) (hn : shape.prod = z.rows) :
    ∃ y, (regrid c x di dO m (start S f0 sha0 server0 managed0)).1 = .ok (y, dO) ∧ applyWeights (some (z, shape)) x dO = .ok (y, dO) := by
  have hfind := answers_find ix gi go di dO hi ho m e ha
  obtain ⟨pre, k, post, hix, _⟩ := ha
  have hk : (k, e) ∈ ix := by rw [hix]; simp
  have hdb : ∃ db, Index.findEntry (reqOf ⟨gi, go, m⟩) (start S f0 sha0 server0 managed0 : St S D).db = (.ok (some e), db) ∧ db.index = some ix := by
    cases managed0 with
    | true => exact ⟨_, first_find f0 sha0 server0 _ ix e hl hfind, rfl⟩
    | false =>
      obtain ⟨db, h1, h2, _⟩ := first_find_off (D := D) f0 sha0 server0 _ ix e hl hfind
      exact ⟨db, h1, h2⟩
  obtain ⟨db, h1, h2⟩ := hdb
  obtain ⟨disk, l, h3, _⟩ := load_new c db.w.managed server0 e (start S f0 sha0 server0 managed0 : St S D).disk path b z shape hp hs hz hsh hc (fun _ => rfl)
  obtain ⟨mem, h4⟩ := find_fresh c di dO m (start S f0 sha0 server0 managed0) gi go hi ho (.inl bare_initial) db e k ix h1 h2 (load_clean _ f0 ix hl) hk disk z shape h3
  rw [(regrid_eq c x di dO m _).2, h4]
  obtain ⟨y, hy⟩ : ∃ y, applyWeights (some (z, shape)) x dO = .ok (y, dO) := ⟨_, (apply_ok z shape x dO dO _).2 ⟨hx, hn, rfl, rfl⟩⟩
  exact ⟨y, hy, hy⟩

/-- C98, what happens instead: weights that are put on the server again under the same path are not fetched: with the default settings, and with
checks as long as newer versions are not to be downloaded, a later process goes on with the ones it has on disk. -/
theorem C98_old_weights (f0 : Index.IndexFile) (sha0 : S.E.Sha) (server0 : String → Option B) (c : Conn B D) (x : Arr α) (di dO : Dict)
    (m : List Char) (gi go : GS) (hi : fromDict S.E.P di = .ok gi) (ho : fromDict S.E.P dO = .ok go) (ix : Index.Index)
    (hl : Index.load S.E.P f0 = .ok ix) (e : Index.Entry) (ha : Answers S.world ix gi go (Index.methodAlias m) e) (path : List Char)
    (hp : Index.matrixPath e = .ok path) (hc : Fine c (urlOf S path)) (hoff : NoNewer S c (urlOf S path)) (b : B) (hs : server0 (urlOf S path) = some b) (z : Csr α)
    (hz : S.parse b = .ok z) (shape : List Nat) (hsh : shapeOf e = .ok shape) (hx : x.flat.length = z.cols) (hn : shape.prod = z.rows) (new : Option B) :
    ∃ y, (regrid c x di dO m (run (start S f0 sha0 server0 true) [.regrid c x di dO m, .serve (urlOf S path) new, .restart])).1 = .ok (y, dO) ∧
      applyWeights (some (z, shape)) x dO = .ok (y, dO) := by
  have hfind := answers_find ix gi go di dO hi ho m e ha
  obtain ⟨pre, k, post, hix, _⟩ := ha
  have hk : (k, e) ∈ ix := by rw [hix]; simp
  have h1 := first_find (D := D) f0 sha0 server0 _ ix e hl hfind
  obtain ⟨disk, l, h3, h5, h6⟩ := load_new c true server0 e (start S f0 sha0 server0 true : St S D).disk path b z shape hp hs hz hsh hc (fun _ => rfl)
  obtain ⟨ext, hext, rfl⟩ := h6 rfl
  obtain ⟨mem, h4⟩ := find_fresh c di dO m (start S f0 sha0 server0 true) gi go hi ho (.inl bare_initial) _ e k ix h1 rfl (load_clean _ f0 ix hl) hk disk z shape h3
  have hstate : run (start S f0 sha0 server0 true) [.regrid c x di dO m, .serve (urlOf S path) new, .restart] =
      (⟨firstDb S f0 sha0 none [.index] none, disk, fun u => if u = urlOf S path then new else server0 u, MemCache.initial⟩ : St S D) := by
    simp only [run, List.foldl_cons, List.foldl_nil, step, (regrid_eq c x di dO m _).1, h4]
    rfl
  rw [hstate]
  obtain ⟨v, hv⟩ := hc.timeout
  obtain ⟨disk', h7⟩ := load_old c (fun u => if u = urlOf S path then new else server0 u) e disk path b z shape hp hz hsh v hv ext hext hc.remote hoff h5
  obtain ⟨mem', h8⟩ := find_fresh c di dO m ⟨firstDb S f0 sha0 none [.index] none, disk, fun u => if u = urlOf S path then new else server0 u, MemCache.initial⟩
    gi go hi ho (.inl bare_initial) _ e k ix (second_find f0 sha0 _ _ ix e hl hfind) rfl (load_clean _ f0 ix hl) hk disk' z shape h7
  rw [(regrid_eq c x di dO m _).2, h8]
  obtain ⟨y, hy⟩ : ∃ y, applyWeights (some (z, shape)) x dO = .ok (y, dO) := ⟨_, (apply_ok z shape x dO dO _).2 ⟨hx, hn, rfl, rfl⟩⟩
  exact ⟨y, hy, hy⟩

/-- C98 (part): at any time, when the in-memory cache is off and URLs are checked (or the disk cache is off), values that are returned are made
with the weights that are on the server now under the path of the entry found. -/
theorem C98_checked_partial (f0 : Index.IndexFile) (sha0 : S.E.Sha) (server0 : String → Option B) (managed0 : Bool) (h : List (Op S D)) (s : St S D)
    (hs : s = run (start S f0 sha0 server0 managed0) h) (hm : s.mem.policy = .off) (c : Conn B D) (x : Arr α) (di dO : Dict) (m : List Char)
    (hc : Checking S c s.server ∨ s.db.w.managed = false) (y : Arr α) (g : Dict) (hr : (regrid c x di dO m s).1 = .ok (y, g)) :
    ∃ gi go e path b z shape, fromDict S.E.P di = .ok gi ∧ fromDict S.E.P dO = .ok go ∧
      (Index.findEntry ⟨gi.d, go.d, m⟩ s.db).1 = .ok (some e) ∧ Index.matrixPath e = .ok path ∧ s.server (urlOf S path) = some b ∧
      S.parse b = .ok z ∧ shapeOf e = .ok shape ∧ applyWeights (some (z, shape)) x dO = .ok (y, g) := by
  have hix : IdxOk (fun _ => True) s.db := by rw [hs]; exact run_idx h _ ⟨trivial, fun _ _ => trivial, fun _ _ _ => trivial, fun ix e => by cases e⟩
  rw [(regrid_eq c x di dO m s).2] at hr
  unfold find at hr
  cases hi : fromDict S.E.P di with
  | error e => rw [hi] at hr; cases hr
  | ok gi =>
    cases ho : fromDict S.E.P dO with
    | error e => rw [hi, ho] at hr; cases hr
    | ok go =>
      rw [hi, ho] at hr
      simp only at hr
      have hget : (MemCache.get S.world.key S.sizeFn (source c s ⟨gi, go, m⟩) ⟨gi, go, m⟩ s.mem).1.res = (source c s ⟨gi, go, m⟩).create ⟨gi, go, m⟩ := by
        unfold MemCache.get
        rw [hm]
        rfl
      generalize MemCache.get S.world.key S.sizeFn (source c s ⟨gi, go, m⟩) ⟨gi, go, m⟩ s.mem = w at hr hget
      obtain ⟨⟨res, cs⟩, t⟩ := w
      simp only at hget
      subst hget
      cases hcr : (source c s ⟨gi, go, m⟩).create ⟨gi, go, m⟩ with
      | error e => simp only [hcr] at hr; cases hr
      | ok p =>
        simp only [hcr] at hr
        obtain ⟨p1, p2⟩ := p
        cases p1 with
        | none => cases hr
        | some z =>
          cases p2 with
          | none => cases hr
          | some sh =>
            simp only [ofPair] at hr
            unfold MemCache.Source.create source at hcr
            simp only at hcr
            cases hf : Index.findEntry (reqOf ⟨gi, go, m⟩) s.db with
            | mk r db =>
              rw [hf] at hcr
              cases r with
              | error e => cases hcr
              | ok r =>
                cases r with
                | none => cases hcr
                | some e =>
                  simp only [foundOut] at hcr
                  obtain ⟨f, ix, _, b2, b3, pre, k, post, b4, _⟩ := found_in (fun _ => True) ⟨gi, go, m⟩ s.db db hix e hf
                    (C31_idempotent _ _ _ hi) (C31_idempotent _ _ _ ho)
                  have hg := getElem_posOf S.world ix (load_clean _ f ix b2) k e (by rw [b4]; simp)
                  have hman : db.w.managed = s.db.w.managed := by
                    have := findEntry_managed (reqOf ⟨gi, go, m⟩) s.db
                    rw [hf] at this
                    exact this
                  simp only [loadOut, entryAt, b3, Option.getD_some, hg, Option.map_some, createFrom, hman] at hcr
                  have hl := loadMatrix_now S c s.db.w.managed s.server e s.disk hc
                  generalize loadMatrix S c s.db.w.managed s.server e s.disk = w at hcr hl
                  obtain ⟨w, d1⟩ := w
                  cases w with
                  | error x => cases hcr
                  | ok z' =>
                    simp only at hcr
                    cases hsh : shapeOf e with
                    | error x => rw [hsh] at hcr; cases hcr
                    | ok sh' =>
                      rw [hsh] at hcr
                      cases hcr
                      obtain ⟨path, b, a1, a2, a3⟩ := hl z rfl
                      exact ⟨gi, go, e, path, b, z, sh, rfl, rfl, by rw [show (⟨gi.d, go.d, m⟩ : Index.Req) = reqOf ⟨gi, go, m⟩ from rfl, hf], a1, a2, a3, hsh, hr⟩

end

/-! ### A concrete inventory -/

namespace Demo
open Verif.Regrid.Demo
open Verif.Index (orca orcaSpec orca_fromDict)

/-- Other weights of the same shape. -/
def zero : Csr ℚ := ⟨3, 2, [0, 0, 0, 0], [], []⟩

/-- Two possible contents of the weights file. -/
noncomputable def setting (P : Py) : Setting ℚ Bool where
  E := ⟨P, COMPARE_KEYS, Unit, fun _ => ()⟩
  CP := Verif.Config.py
  floatText := floatText
  items := items
  sha := id
  sizeFn := fun _ => 50
  base := "https://x.int/db".toList
  parse := fun b => .ok (if b then demo else zero)
  memory := fun _ => some 100

theorem sane (P : Py) : (setting P).world.Sane := world_sane P

def indexFile : Index.IndexFile := ⟨some (.int 1), some [("w", raw)]⟩

def url : String := "https://x.int/db/mir_1_nearest-neighbour/w.npz"

def conn : Conn Bool Nat := ⟨urls (.bool false) (.bool false), true, fun _ => .ok ".npz", fun _ => false, fun _ => none, fun _ _ _ => .ok true, fun _ => none⟩

def files (b : Bool) : String → Option Bool := fun u => if u = url then some b else none

theorem load_ok (P : Py) : Index.load P indexFile = .ok inventory.index := by
  have hp : Index.parse P raw = .ok (orcaSpec (some shape), orcaSpec (some shape)) :=
    (Index.parse_ok P raw _ _).2 ⟨⟨_, rfl, orca_fromDict P _⟩, ⟨_, rfl, orca_fromDict P _⟩⟩
  unfold Index.load
  rw [if_pos (by decide)]
  simp [indexFile, Index.loadOne, hp, Index.upsert, inventory, entry]

theorem path_ok : Index.matrixPath entry = .ok "mir_1_nearest-neighbour/w.npz".toList := by rfl

theorem url_ok (P : Py) : urlOf (setting P) "mir_1_nearest-neighbour/w.npz".toList = url := by rfl

theorem fine (u : String) : Fine conn u := ⟨rfl, ⟨.int 30, rfl⟩, ⟨".npz", rfl⟩, rfl⟩

/-- A first use: the values are those of the weights on the server. -/
example (P : Py) : ∃ y, (regrid conn ⟨[2], [10, 20]⟩ (orca (some shape)) (orca (some shape)) "nn".toList
    (start (setting P) indexFile () (files true) true)).1 = .ok (y, orca (some shape)) ∧ y.elem [1, 0] = some 20 := by
  obtain ⟨y, h1, h2⟩ := C98_first_use_partial (S := setting P) indexFile () (files true) true conn ⟨[2], [10, 20]⟩ _ _ "nn".toList _ _ (orca_fromDict P _)
    (orca_fromDict P _) _ (load_ok P) entry (answers P) _ path_ok (fine _) true (by rw [url_ok]; simp [files]) demo rfl [3, 1] rfl rfl rfl
  refine ⟨y, h1, ?_⟩
  obtain ⟨_, _, _, rfl⟩ := (apply_ok _ _ _ _ _ _).1 h2
  simp [Arr.elem, offset, demo, Csr.dot, Csr.row, Csr.ptr, List.range, List.range.loop]

/-- C98 refuted: the file under the path of the entry is replaced, by weights that give 0 everywhere;
a new process still returns the values of the old file, although it reaches the server, which would say that the file is out of date. -/
theorem C98_refuted (P : Py) : ∃ h : List (Op (setting P) Nat), ∃ y,
    (run (start (setting P) indexFile () (files true) true) h).server url = some false ∧ (setting P).parse false = .ok zero ∧
    (regrid conn ⟨[2], [10, 20]⟩ (orca (some shape)) (orca (some shape)) "nn".toList (run (start (setting P) indexFile () (files true) true) h)).1 =
      .ok (y, orca (some shape)) ∧ y.elem [1, 0] = some 20 ∧
    ∀ y', applyWeights (some (zero, [3, 1])) ⟨[2], [10, 20]⟩ (orca (some shape)) = .ok (y', orca (some shape)) → y'.elem [1, 0] = some 0 := by
  refine ⟨[.regrid conn ⟨[2], [10, 20]⟩ (orca (some shape)) (orca (some shape)) "nn".toList, .serve url (some false), .restart], ?_⟩
  obtain ⟨y, h1, h2⟩ := C98_old_weights (S := setting P) indexFile () (files true) conn ⟨[2], [10, 20]⟩ _ _ "nn".toList _ _ (orca_fromDict P _)
    (orca_fromDict P _) _ (load_ok P) entry (answers P) _ path_ok (fine _) (.inl rfl) true (by rw [url_ok]; simp [files]) demo rfl [3, 1] rfl rfl rfl
    (some false)
  rw [url_ok] at h1
  refine ⟨y, ?_, rfl, h1, ?_, ?_⟩
  · simp [run, step]
  · obtain ⟨_, _, _, rfl⟩ := (apply_ok _ _ _ _ _ _).1 h2
    simp [Arr.elem, offset, demo, Csr.dot, Csr.row, Csr.ptr, List.range, List.range.loop]
  · intro y' h
    obtain ⟨_, _, _, rfl⟩ := (apply_ok _ _ _ _ _ _).1 h
    simp [Arr.elem, offset, zero, Csr.dot, Csr.row, Csr.ptr, List.range, List.range.loop]

/-- Settings with which URLs are checked; the check is right about a server with that file. -/
def checking (b : Bool) : Conn Bool Nat :=
  { conn with cfg := urls (.bool true) (.bool true), outOfDate := fun u old _ => .ok (decide (files b u ≠ some old)) }

/-- C98 with checks at a state after a configuration change and a replaced file: a regrid succeeds there, with the new file. -/
example (P : Py) : ∃ y, (regrid (checking false) ⟨[2], [10, 20]⟩ (orca (some shape)) (orca (some shape)) "nn".toList
      (run (start (setting P) indexFile () (files true) true) [.configure ⟨some (some 1000), false, some .off⟩, .serve url (some false)])).1 = .ok (y, orca (some shape)) ∧
    y.elem [1, 0] = some 0 := by
  obtain ⟨s, es⟩ : ∃ s : St (setting P) Nat, s = run (start (setting P) indexFile () (files true) true)
      [.configure ⟨some (some 1000), false, some .off⟩, .serve url (some false)] := ⟨_, rfl⟩
  have hserver : s.server = files false := by
    rw [es]
    funext u
    simp only [run, List.foldl_cons, List.foldl_nil, step, start, files]
    split <;> rfl
  have hpol : s.mem.policy = .off := by rw [es]; rfl
  have hdb : s.db = (start (setting P) indexFile () (files true) true : St (setting P) Nat).db := by rw [es]; rfl
  have hdisk : s.disk = (start (setting P) indexFile () (files true) true : St (setting P) Nat).disk := by rw [es]; rfl
  have hfind := answers_find (S := setting P) inventory.index _ _ _ _ (orca_fromDict P (some shape)) (orca_fromDict P (some shape)) "nn".toList entry (answers P)
  have h1 := first_find (S := setting P) (D := Nat) indexFile () (files true) _ _ entry (load_ok P) hfind
  have hfine : Fine (checking false) (urlOf (setting P) "mir_1_nearest-neighbour/w.npz".toList) := ⟨rfl, ⟨.int 30, rfl⟩, ⟨".npz", rfl⟩, rfl⟩
  obtain ⟨disk, l, h3, _⟩ := load_new (S := setting P) (checking false) true s.server entry s.disk _ false zero [3, 1] path_ok
    (by rw [url_ok, hserver]; simp [files]) rfl rfl hfine (fun _ => by rw [hdisk]; rfl)
  obtain ⟨mem, h4⟩ := find_fresh (checking false) (orca (some shape)) (orca (some shape)) "nn".toList s _ _ (orca_fromDict P _) (orca_fromDict P _) (.inr hpol) _ entry "w"
    inventory.index (by rw [hdb]; exact h1) rfl (load_clean _ _ _ (load_ok P)) (by simp [inventory]) disk zero [3, 1] h3
  obtain ⟨y, hy⟩ : ∃ y, applyWeights (some (zero, [3, 1])) ⟨[2], [10, 20]⟩ (orca (some shape)) = .ok (y, orca (some shape)) :=
    ⟨_, (apply_ok zero [3, 1] ⟨[2], [10, 20]⟩ (orca (some shape)) (orca (some shape)) _).2 ⟨rfl, rfl, rfl, rfl⟩⟩
  have hr : (regrid (checking false) ⟨[2], [10, 20]⟩ (orca (some shape)) (orca (some shape)) "nn".toList s).1 = .ok (y, orca (some shape)) := by
    rw [(regrid_eq _ _ _ _ _ _).2, h4]; exact hy
  rw [← es]
  refine ⟨y, hr, ?_⟩
  have hck : Checking (setting P) (checking false) s.server := by
    refine ⟨fun h => (by cases h), ⟨.bool true, rfl, rfl⟩, fun u old _ b h => ?_⟩
    rw [hserver]
    cases h
    simp
  obtain ⟨gi, go, e, path, b, z, sh, g1, g2, g3, g4, g5, g6, g7, g8⟩ := C98_checked_partial indexFile () (files true) true _ s es hpol _ _ _ _ _ (.inl hck) y _ hr
  have hb : b = false := by
    rw [hserver] at g5
    unfold files at g5
    split at g5 <;> cases g5
    rfl
  subst hb
  cases g6
  obtain ⟨_, _, _, rfl⟩ := (apply_ok _ _ _ _ _ _).1 hy
  simp [Arr.elem, offset, zero, Csr.dot, Csr.row, Csr.ptr, List.range, List.range.loop]

theorem zero_wf : zero.WF := by
  refine ⟨rfl, ?_, ?_, rfl, rfl, by decide⟩
  · intro p hp; cases hp; rfl
  · intro i j a b hij ha hb
    have hi : i < 4 := (List.getElem?_eq_some_iff.1 ha).1
    have hj : j < 4 := (List.getElem?_eq_some_iff.1 hb).1
    simp only [zero] at ha hb
    interval_cases i <;> interval_cases j <;> first | omega | (simp at ha hb; omega)

/-- C97 at that history: it applies, and the old weights are what it allows. -/
example (P : Py) : ∃ y, (regrid conn ⟨[2], [10, 20]⟩ (orca (some shape)) (orca (some shape)) "nn".toList (run (start (setting P) indexFile () (files true) true)
      [.regrid conn ⟨[2], [10, 20]⟩ (orca (some shape)) (orca (some shape)) "nn".toList, .serve url (some false), .restart])).1 = .ok (y, orca (some shape)) ∧
    y.shape = [3, 1] := by
  obtain ⟨y, h1, _⟩ := C98_old_weights (S := setting P) indexFile () (files true) conn ⟨[2], [10, 20]⟩ _ _ "nn".toList _ _ (orca_fromDict P _)
    (orca_fromDict P _) _ (load_ok P) entry (answers P) _ path_ok (fine _) (.inl rfl) true (by rw [url_ok]; simp [files]) demo rfl [3, 1] rfl rfl rfl
    (some false)
  rw [url_ok] at h1
  refine ⟨y, h1, ?_⟩
  obtain ⟨gi, go, f, ix, e, path, b, z, sh, _, _, hf, hl, ha, _, _, _, hs, _, hy, _⟩ := C97_values (sane P)
    (fun b z h => by cases b <;> cases h <;> first | exact zero_wf | exact demo_wf) indexFile () (files true) true _
    (fun c x di dO m h => by simp at h; obtain ⟨_, _, rfl, rfl, _⟩ := h; exact ⟨usable P, usable P⟩) conn _ _ _ (usable P) (usable P) _ y _ h1
  rcases hf with rfl | ⟨_, h⟩
  · have : ix = inventory.index := by have := load_ok P; rw [show Index.load P indexFile = .ok ix from hl] at this; cases this; rfl
    subst this
    obtain ⟨pre, k, post, hix, _⟩ := ha
    have : (k, e) ∈ inventory.index := by rw [hix]; simp
    simp [inventory] at this
    obtain ⟨_, rfl⟩ := this
    have h31 : shapeOf entry = .ok [3, 1] := rfl
    rw [hy]; rw [h31] at hs; cases hs; rfl
  · simp at h

end Demo

end Verif.Remote
