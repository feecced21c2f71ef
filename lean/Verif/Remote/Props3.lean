import Verif.Remote.Props2

/-! # C97, C98: when weights are said to be missing; trying again -/

namespace Verif.Remote
open Verif.GridSpec Verif.Regrid Verif.DiskCache.Download

section
variable {Q K W T : Type} [LinearOrder K]

/-- Only found weights are kept. -/
theorem get_full (key : Q → K) (sizeFn : W → Nat) (src : MemCache.Source Q W T) (q : Q) (s : MemCache.Cache K W T) (hacc : MemCache.Acc s)
    (hs : ∀ it ∈ s.items, it.data.1 ≠ none ∧ it.data.2 ≠ none) (hc : ∀ w sh, src.create q = .ok (some w, sh) → sh ≠ none) :
    (∀ it ∈ (MemCache.get key sizeFn src q s).2.items, it.data.1 ≠ none ∧ it.data.2 ≠ none) ∧
    ∀ d, (MemCache.get key sizeFn src q s).1.res = .ok d → d.1 ≠ none ∧ d.2 ≠ none ∨ src.create q = .ok d := by
  have h := MemCache.get_cases key sizeFn src q s hacc
  generalize (MemCache.get key sizeFn src q s).1 = o at h
  generalize (MemCache.get key sizeFn src q s).2 = s' at h
  cases h with
  | off => exact ⟨hs, fun d hd => .inr hd⟩
  | hit _ l1 it l2 hi hk =>
    refine ⟨fun x hx => ?_, fun d hd => ?_⟩
    · apply hs; rw [hi]; simp at hx ⊢; grind
    · cases hd; exact .inl (hs it (by rw [hi]; simp))
  | unlErr => exact ⟨hs, fun d hd => by cases hd⟩
  | unlNone _ _ sh hc' => exact ⟨hs, fun d hd => by cases hd; exact .inr hc'⟩
  | unlSome _ _ w sh hc' =>
    refine ⟨fun x hx => ?_, fun d hd => by cases hd; exact .inr hc'⟩
    simp at hx
    rcases hx with hx | rfl
    · exact hs x hx
    · exact ⟨by simp, hc _ _ hc'⟩
  | limErr _ _ ev kept ho => exact ⟨fun x hx => hs x (ho.sub.subset hx), fun d hd => by cases hd⟩
  | limNone _ _ ev kept ho _ sh hc' => exact ⟨fun x hx => hs x (ho.sub.subset hx), fun d hd => by cases hd; exact .inr hc'⟩
  | limSome _ _ ev kept ho _ w sh hc' _ _ _ ev2 kept2 ho2 =>
    refine ⟨fun x hx => ?_, fun d hd => by cases hd; exact .inr hc'⟩
    have := ho2.sub.subset hx
    simp at this
    rcases this with hx | rfl
    · exact hs x (ho.sub.subset hx)
    · exact ⟨by simp, hc _ _ hc'⟩
  | limBad _ _ w sh hc' =>
    refine ⟨fun x hx => ?_, fun d hd => by cases hd⟩
    simp at hx
    rcases hx with hx | rfl
    · exact hs x hx
    · exact ⟨by simp, hc _ _ hc'⟩

end

variable {α B D : Type} {S : Setting α B}

/-- What is in the in-memory cache has weights and a shape. -/
structure Full (s : St S D) : Prop where
  acc : MemCache.Acc s.mem
  full : ∀ it ∈ s.mem.items, it.data.1 ≠ none ∧ it.data.2 ≠ none

/-- Creation gives both, or the lookup found nothing. -/
theorem create_full (c : Conn B D) (s : St S D) (q : Request) (d : Option (Csr α) × Option (List Nat)) (h : (source c s q).create q = .ok d) :
    d.1 ≠ none ∧ d.2 ≠ none ∨ d = (none, none) ∧ (Index.findEntry (reqOf q) s.db).1 = .ok none := by
  unfold MemCache.Source.create source at h
  simp only at h
  cases hf : Index.findEntry (reqOf q) s.db with
  | mk r db =>
    rw [hf] at h
    cases r with
    | error e => cases h
    | ok r =>
      cases r with
      | none => cases h; exact .inr ⟨rfl, rfl⟩
      | some e =>
        left
        simp only [foundOut, loadOut] at h
        generalize entryAt db ⟨S.memory e, posOf (db.index.getD []) e.name⟩ = en at h
        cases en with
        | none => cases h
        | some e' =>
          simp only at h
          generalize createFrom S c db.w.managed s.server e' s.disk = y at h
          obtain ⟨y, disk⟩ := y
          cases y with
          | error x => cases h
          | ok p => cases h; exact ⟨by simp, by simp⟩

theorem find_full (c : Conn B D) (di dO : Dict) (m : List Char) (s : St S D) (h : Full s) :
    Full (find c di dO m s).2 ∧ ((find c di dO m s).1 = .ok none →
      ∃ gi go, fromDict S.E.P di = .ok gi ∧ fromDict S.E.P dO = .ok go ∧ (Index.findEntry ⟨gi.d, go.d, m⟩ s.db).1 = .ok none) := by
  unfold find
  cases hi : fromDict S.E.P di with
  | error e => exact ⟨h, fun e => by cases e⟩
  | ok gi =>
    cases ho : fromDict S.E.P dO with
    | error e => exact ⟨h, fun e => by cases e⟩
    | ok go =>
      simp only
      have hcr := create_full c s ⟨gi, go, m⟩
      have hg := get_full S.world.key S.sizeFn (source c s ⟨gi, go, m⟩) ⟨gi, go, m⟩ s.mem h.acc h.full
        (fun w sh hd => by
          rcases hcr _ hd with hd | ⟨hd, _⟩
          · exact hd.2
          · cases hd)
      have hacc := MemCache.get_acc S.world.key S.sizeFn (source c s ⟨gi, go, m⟩) ⟨gi, go, m⟩ s.mem h.acc
      generalize MemCache.get S.world.key S.sizeFn (source c s ⟨gi, go, m⟩) ⟨gi, go, m⟩ s.mem = y at hg hacc
      obtain ⟨⟨res, cs⟩, t⟩ := y
      have hs' : Full { afterCalls c s ⟨gi, go, m⟩ cs with mem := t } := ⟨hacc, hg.1⟩
      cases res with
      | error e => exact ⟨hs', fun e => by cases e⟩
      | ok p =>
        refine ⟨hs', fun e => ⟨gi, go, rfl, rfl, ?_⟩⟩
        have hfull : ¬(p.1 ≠ none ∧ p.2 ≠ none) := by
          rintro ⟨h1, h2⟩
          obtain ⟨p1, p2⟩ := p
          cases p1 with
          | none => exact h1 rfl
          | some z =>
            cases p2 with
            | none => exact h2 rfl
            | some sh => cases e
        rcases hg.2 p rfl with h1 | h1
        · exact (hfull h1).elim
        · rcases hcr p h1 with h2 | ⟨_, h2⟩
          · exact (hfull h2).elim
          · exact h2

section
variable [Zero α] [Add α] [Mul α]

theorem run_full : ∀ (h : List (Op S D)) (s : St S D), Full s → Full (run s h) := by
  intro h
  induction h with
  | nil => intro s hs; exact hs
  | cons o h ih =>
    intro s hs
    refine ih (step s o) ?_
    cases o with
    | regrid c x di dO m =>
      simp only [step, (regrid_eq c x di dO m s).1]
      exact (find_full c di dO m s hs).1
    | configure cfg => exact ⟨MemCache.update_acc cfg s.mem hs.acc, update_items cfg s.mem hs.acc (fun _ d => d.1 ≠ none ∧ d.2 ≠ none) hs.full⟩
    | clear => exact ⟨MemCache.Acc.clear s.mem, fun it hit => by cases hit⟩
    | session o => exact ⟨hs.acc, hs.full⟩
    | serve url b => exact ⟨hs.acc, hs.full⟩
    | evict l => exact ⟨hs.acc, hs.full⟩
    | download c call => exact ⟨hs.acc, hs.full⟩
    | restart => exact ⟨MemCache.initial_acc, fun it hit => by cases hit⟩

/-- C97: after any history, weights are said to be missing only if the lookup in the index found no entry; in particular a download that fails, a
damaged file or a refusal of a cache is never reported as "no weights for these grids". -/
theorem C97_missing (f0 : Index.IndexFile) (sha0 : S.E.Sha) (server0 : String → Option B) (managed0 : Bool) (h : List (Op S D)) (c : Conn B D)
    (di dO : Dict) (m : List Char) (hr : (find c di dO m (run (start S f0 sha0 server0 managed0) h)).1 = .ok none) :
    ∃ gi go, fromDict S.E.P di = .ok gi ∧ fromDict S.E.P dO = .ok go ∧
      (Index.findEntry ⟨gi.d, go.d, m⟩ (run (start S f0 sha0 server0 managed0) h).db).1 = .ok none :=
  (find_full c di dO m _ (run_full h _ ⟨MemCache.initial_acc, fun it hit => by cases hit⟩)).2 hr

end

/-! ### Trying again -/

/-- A lookup whose weights cannot be loaded, in a process whose in-memory cache is as at the start. -/
theorem find_failed (c : Conn B D) (di dO : Dict) (m : List Char) (s : St S D) (gi go : GS) (hi : fromDict S.E.P di = .ok gi)
    (ho : fromDict S.E.P dO = .ok go) (hm : Bare s.mem) (db : Index.Db S.E) (e : Index.Entry) (k : String) (ix : Index.Index)
    (hf : Index.findEntry (reqOf ⟨gi, go, m⟩) s.db = (.ok (some e), db)) (hx : db.index = some ix) (hc : Index.Clean S.E.P ix) (hk : (k, e) ∈ ix)
    (disk : Disk B D) (x : Regrid.Err) (hl : createFrom S c db.w.managed s.server e s.disk = (.error x, disk)) :
    ∃ er, (find c di dO m s).1 = .error er ∧ (find c di dO m s).2.db = db ∧ (find c di dO m s).2.server = s.server ∧ Bare (find c di dO m s).2.mem ∧
      (find c di dO m s).2.disk = disk := by
  have hfo : (source c s ⟨gi, go, m⟩).findEntry ⟨gi, go, m⟩ = .ok (some ⟨S.memory e, posOf (db.index.getD []) e.name⟩) := by
    simp only [source, hf, foundOut]
  have hlo : loadOut c db s (some ⟨S.memory e, posOf (db.index.getD []) e.name⟩) = (.error (.source x.code), disk) := by
    simp only [loadOut, entryAt, hx, Option.getD_some, getElem_posOf S.world ix hc k e hk, Option.map_some, hl]
  have hcr : (source c s ⟨gi, go, m⟩).create ⟨gi, go, m⟩ = .error (.source x.code) := by
    unfold MemCache.Source.create
    rw [hfo]
    simp only [source, hf, hlo]
  have hcc : (source c s ⟨gi, go, m⟩).createCalls ⟨gi, go, m⟩ = [.find ⟨gi, go, m⟩, .load (some ⟨S.memory e, posOf (db.index.getD []) e.name⟩)] := by
    unfold MemCache.Source.createCalls
    rw [hfo]
  have hget : (MemCache.get S.world.key S.sizeFn (source c s ⟨gi, go, m⟩) ⟨gi, go, m⟩ s.mem).1 =
      ⟨.error (.source x.code), [.find ⟨gi, go, m⟩, .load (some ⟨S.memory e, posOf (db.index.getD []) e.name⟩)]⟩ ∧
      Bare (MemCache.get S.world.key S.sizeFn (source c s ⟨gi, go, m⟩) ⟨gi, go, m⟩ s.mem).2 := by
    have hg := MemCache.get_cases S.world.key S.sizeFn (source c s ⟨gi, go, m⟩) ⟨gi, go, m⟩ s.mem hm.acc
    have hbad : ∃ m, s.mem.maxMem = some m ∧ 0 < m := ⟨_, hm.limit, by norm_num⟩
    generalize (MemCache.get S.world.key S.sizeFn (source c s ⟨gi, go, m⟩) ⟨gi, go, m⟩ s.mem).1 = o at hg
    generalize (MemCache.get S.world.key S.sizeFn (source c s ⟨gi, go, m⟩) ⟨gi, go, m⟩ s.mem).2 = s' at hg
    cases hg with
    | off h => rw [hm.policy] at h; cases h
    | hit _ l1 it l2 hit => rw [hm.items] at hit; cases l1 <;> cases hit
    | limErr _ _ ev kept hev _ _ _ he =>
      have hkept : kept = [] := by
        have := hev.sub
        rw [hm.items] at this
        exact List.sublist_nil.1 this
      subst hkept
      rcases he with ⟨he, rfl⟩ | ⟨_, _, _, ⟨_, he, _⟩ | ⟨he, _⟩⟩
      · rw [hcr] at he
        cases he
        exact ⟨by rw [hcc], rfl, rfl, hm.strict, hm.limit, hm.policy⟩
      · rw [hm.strict] at he; cases he
      · exact absurd hbad he
    | limBad _ _ _ _ _ he => exact absurd hbad he
    | unlErr h => rw [hm.policy] at h; cases h
    | unlNone _ _ _ he => rw [hcr] at he; cases he
    | unlSome _ _ _ _ he => rw [hcr] at he; cases he
    | limNone _ _ _ _ _ _ _ he => rw [hcr] at he; cases he
    | limSome _ _ _ _ _ _ _ _ he => rw [hcr] at he; cases he
  unfold find
  rw [hi, ho]
  simp only
  generalize MemCache.get S.world.key S.sizeFn (source c s ⟨gi, go, m⟩) ⟨gi, go, m⟩ s.mem = y at hget
  obtain ⟨o, t⟩ := y
  simp only at hget
  obtain ⟨rfl, ht⟩ := hget
  refine ⟨_, rfl, ?_, rfl, ht, ?_⟩
  · simp only [afterCalls, hf]
  · simp only [afterCalls, hf, hlo]

/-- Loading weights that are not in the disk cache, without network. -/
theorem load_down (c : Conn B D) (hdown : c.up = false) (managed : Bool) (server : String → Option B) (e : Index.Entry) (disk : Disk B D)
    (he : ∀ l, disk.files l = none) :
    ∃ x disk', createFrom S c managed server e disk = (.error x, disk') ∧ ∀ l, disk'.files l = none := by
  have hl : ∃ x disk', loadMatrix S c managed server e disk = (.error x, disk') ∧ ∀ l, disk'.files l = none := by
    unfold loadMatrix
    cases Index.matrixPath e with
    | error x => exact ⟨_, _, rfl, he⟩
    | ok path =>
      simp only
      have hd : (c.downloader server (urlOf S path)).download = .error .net := by
        simp only [Conn.downloader, hdown, served]
      unfold downloadAndCache
      cases c.cfg "url-download-timeout" with
      | error x => exact ⟨_, _, rfl, he⟩
      | ok v =>
        simp only
        obtain ⟨s1, e1⟩ : ∃ s1, s1 = (if (c.downloader server (urlOf S path)).asksExtension then disk.ask .extension else disk) := ⟨_, rfl⟩
        rw [← e1]
        have he1 : ∀ l, s1.files l = none := by intro l; rw [e1]; split <;> exact he l
        cases (c.downloader server (urlOf S path)).extension with
        | error x => exact ⟨_, _, rfl, he1⟩
        | ok ext =>
          simp only
          cases (c.downloader server (urlOf S path)).localPath with
          | some p => exact ⟨_, _, rfl, he1⟩
          | none =>
            cases managed with
            | true =>
              simp only [if_true, cacheFileAt, he1, fetch, hd, returned]
              exact ⟨_, _, rfl, he1⟩
            | false =>
              simp only [Bool.false_eq_true, if_false, fetch, hd, returned]
              exact ⟨_, _, rfl, he1⟩
  obtain ⟨x, disk', h1, h2⟩ := hl
  refine ⟨x, disk', ?_, h2⟩
  simp only [createFrom, h1]

/-- A lookup in an index that is there and has the answer. -/
theorem find_again (db : Index.Db S.E) (r : Index.Req) (ix : Index.Index) (hx : db.index = some ix) (e : Index.Entry)
    (hf : Index.find S.E.P S.E.order ix r.input r.output (Index.methodAlias r.method) = .ok (some e)) :
    Index.findEntry r db = (.ok (some e), db) := by
  simp [Index.findEntry, Index.ensureIndex, Index.lookIn, hx, hf]

/-- A lookup on a new installation, when the index on the server has no answer. -/
theorem empty_find (f0 : Index.IndexFile) (server0 : String → Option B) (r : Index.Req) (ix : Index.Index)
    (hl : Index.load S.E.P f0 = .ok ix) (hn : Index.find S.E.P S.E.order ix r.input r.output (Index.methodAlias r.method) = .ok none) :
    (Index.findEntry r (start S f0 (S.E.shaOf f0) server0 true : St S D).db).1 = .ok none := by
  simp [Index.findEntry, Index.ensureIndex, Index.loadIndex, Index.indexPath, Index.getIndex, Index.createCached, Index.fetchIndex, start,
    Index.World.read, hl, Index.lookIn, Index.reload, Index.forceOf, Index.remoteSha, hn]

section
variable {α B D : Type} [CommRing α] {S : Setting α B}

/-- C98 (part): when the weights could not be downloaded, any number of times, the same request is served as soon as they can be, with the weights on
the server. -/
theorem C98_try_again_partial (f0 : Index.IndexFile) (sha0 : S.E.Sha) (server0 : String → Option B) (managed0 : Bool) (di dO : Dict)
    (m : List Char) (tries : List (Conn B D × Arr α)) (hdown : ∀ t ∈ tries, t.1.up = false) (c : Conn B D) (x : Arr α)
    (gi go : GS) (hi : fromDict S.E.P di = .ok gi) (ho : fromDict S.E.P dO = .ok go) (ix : Index.Index)
    (hl : Index.load S.E.P f0 = .ok ix) (e : Index.Entry) (ha : Answers S.world ix gi go (Index.methodAlias m) e) (path : List Char)
    (hp : Index.matrixPath e = .ok path) (hc : Fine c (urlOf S path)) (b : B) (hs : server0 (urlOf S path) = some b) (z : Csr α)
    (hz : S.parse b = .ok z) (shape : List Nat) (hsh : shapeOf e = .ok shape) (hx : x.flat.length = z.cols) (hn : shape.prod = z.rows) :
    (∀ pre t post, tries = pre ++ t :: post →
      ∃ er, (regrid t.1 t.2 di dO m (run (start S f0 sha0 server0 managed0) (pre.map fun t => .regrid t.1 t.2 di dO m))).1 = .error er) ∧
    ∃ y, (regrid c x di dO m (run (start S f0 sha0 server0 managed0) (tries.map fun t => .regrid t.1 t.2 di dO m))).1 = .ok (y, dO) ∧
      applyWeights (some (z, shape)) x dO = .ok (y, dO) := by
  have hfind := answers_find ix gi go di dO hi ho m e ha
  obtain ⟨pre, k, post, hix, _⟩ := ha
  have hk : (k, e) ∈ ix := by rw [hix]; simp
  have hdb : ∃ db, Index.findEntry (reqOf ⟨gi, go, m⟩) (start S f0 sha0 server0 managed0 : St S D).db = (.ok (some e), db) ∧ db.index = some ix := by
    cases managed0 with
    | true => exact ⟨_, first_find f0 sha0 server0 _ ix e hl hfind, rfl⟩
    | false =>
      obtain ⟨db, h1, h2, _⟩ := first_find_off (D := D) f0 sha0 server0 _ ix e hl hfind
      exact ⟨db, h1, h2⟩
  have hJ : ∀ (l : List (Conn B D × Arr α)) (s : St S D), (∀ t ∈ l, t.1.up = false) →
      (s.server = server0 ∧ Bare s.mem ∧ (∀ l, s.disk.files l = none) ∧
        ∃ db, Index.findEntry (reqOf ⟨gi, go, m⟩) s.db = (.ok (some e), db) ∧ db.index = some ix) →
      (∀ pre t post, l = pre ++ t :: post → ∃ er, (regrid t.1 t.2 di dO m (run s (pre.map fun t => .regrid t.1 t.2 di dO m))).1 = .error er) ∧
      (let s' := run s (l.map fun t => Op.regrid t.1 t.2 di dO m)
       s'.server = server0 ∧ Bare s'.mem ∧ (∀ l, s'.disk.files l = none) ∧
        ∃ db, Index.findEntry (reqOf ⟨gi, go, m⟩) s'.db = (.ok (some e), db) ∧ db.index = some ix) := by
    intro l
    induction l with
    | nil => intro s _ hJ; exact ⟨(fun pre t post h => by cases pre <;> cases h), hJ⟩
    | cons t l ih =>
      rintro s hd ⟨j1, j2, j3, db, j4, j5⟩
      obtain ⟨x', disk', d1, d2⟩ := load_down (S := S) t.1 (hd t (by simp)) db.w.managed s.server e s.disk j3
      obtain ⟨er, f1, f2, f3, f4, f5⟩ := find_failed t.1 di dO m s gi go hi ho j2 db e k ix j4 j5 (load_clean _ f0 ix hl) hk disk' x' d1
      have hstep : step s (.regrid t.1 t.2 di dO m) = (find t.1 di dO m s).2 := (regrid_eq t.1 t.2 di dO m s).1
      have hnext := ih (step s (.regrid t.1 t.2 di dO m)) (fun t ht => hd t (by simp [ht]))
        (by rw [hstep]; exact ⟨f3.trans j1, f4, by rw [f5]; exact d2, db, by rw [f2]; exact find_again db _ ix j5 e hfind, j5⟩)
      refine ⟨?_, hnext.2⟩
      intro pre t' post h
      cases pre with
      | nil =>
        simp only [List.nil_append, List.cons.injEq] at h
        obtain ⟨rfl, _⟩ := h
        exact ⟨er, by rw [List.map_nil, (regrid_eq _ _ _ _ _ _).2]; simp only [run, List.foldl_nil, f1]⟩
      | cons a pre =>
        simp only [List.cons_append, List.cons.injEq] at h
        obtain ⟨rfl, rfl⟩ := h
        exact hnext.1 pre t' post rfl
  obtain ⟨h0, j1, j2, j3, db, j4, j5⟩ := hJ tries (start S f0 sha0 server0 managed0) hdown ⟨rfl, bare_initial, fun _ => rfl, hdb⟩
  refine ⟨h0, ?_⟩
  generalize run (start S f0 sha0 server0 managed0) (tries.map fun t => Op.regrid t.1 t.2 di dO m) = s at j1 j2 j3 j4 ⊢
  obtain ⟨disk, l, h3, _⟩ := load_new c db.w.managed s.server e s.disk path b z shape hp (by rw [j1]; exact hs) hz hsh hc j3
  obtain ⟨mem, h4⟩ := find_fresh c di dO m s gi go hi ho (.inl j2) db e k ix j4 j5 (load_clean _ f0 ix hl) hk disk z shape h3
  rw [(regrid_eq c x di dO m _).2, h4]
  obtain ⟨y, hy⟩ : ∃ y, applyWeights (some (z, shape)) x dO = .ok (y, dO) := ⟨_, (apply_ok z shape x dO dO _).2 ⟨hx, hn, rfl, rfl⟩⟩
  exact ⟨y, hy, hy⟩

end

namespace Demo
open Verif.Regrid.Demo
open Verif.Index (orca orcaSpec orca_fromDict)

/-- Twice without network, then with it. -/
example (P : Py) : ∃ y, (regrid conn ⟨[2], [10, 20]⟩ (orca (some shape)) (orca (some shape)) "nn".toList
    (run (start (setting P) indexFile () (files true) true)
      (List.map (fun t : Conn Bool Nat × Arr ℚ => .regrid t.1 t.2 (orca (some shape)) (orca (some shape)) "nn".toList)
        [({ conn with up := false }, ⟨[2], [10, 20]⟩), ({ conn with up := false }, ⟨[2], [1, 2]⟩)]))).1 = .ok (y, orca (some shape)) := by
  obtain ⟨_, y, h, _⟩ := C98_try_again_partial (S := setting P) indexFile () (files true) true (orca (some shape)) (orca (some shape)) "nn".toList
    [({ conn with up := false }, ⟨[2], [10, 20]⟩), ({ conn with up := false }, ⟨[2], [1, 2]⟩)] (by simp) conn ⟨[2], [10, 20]⟩ _ _ (orca_fromDict P _)
    (orca_fromDict P _) _ (load_ok P) entry (answers P) _ path_ok (fine _) true (by rw [url_ok]; simp [files]) demo rfl [3, 1] rfl rfl rfl
  exact ⟨y, h⟩

/-- Settings with which URLs are checked but newer versions not fetched. -/
example (P : Py) (u : String) : NoNewer (setting P) { conn with cfg := urls (.bool true) (.bool false) } u :=
  .inr ⟨⟨_, rfl⟩, ⟨_, rfl, rfl⟩, fun _ _ => ⟨_, rfl⟩⟩

/-- The hypothesis of `C97_missing`: an empty inventory, weights are said to be missing. -/
example (P : Py) : (find conn (orca (some shape)) (orca (some shape)) "nn".toList
    (run (start (setting P) ⟨some (.int 1), some []⟩ () (files true) true : St (setting P) Nat) [])).1 = .ok none := by
  have hl : Index.load (setting P).E.P ⟨some (.int 1), some []⟩ = .ok [] := by
    unfold Index.load
    rw [if_pos (by decide)]
    rfl
  obtain ⟨q, hq⟩ : ∃ q : Request, q = ⟨orcaSpec (some shape), orcaSpec (some shape), "nn".toList⟩ := ⟨_, rfl⟩
  have hfd : ∀ g, g = orcaSpec (some shape) → fromDict (setting P).E.P g.d = .ok g := by
    rintro g rfl
    exact C31_idempotent _ _ _ (orca_fromDict P (some shape))
  have hn : Index.find (setting P).E.P (setting P).E.order [] (reqOf q).input (reqOf q).output (Index.methodAlias (reqOf q).method) = .ok none := by
    subst hq
    unfold Index.find
    simp only [reqOf, hfd _ rfl]
    rfl
  have hf : (Index.findEntry (reqOf q) (start (setting P) ⟨some (.int 1), some []⟩ () (files true) true : St (setting P) Nat).db).1 = .ok none := by
    exact empty_find (S := setting P) (D := Nat) ⟨some (.int 1), some []⟩ (files true) (reqOf q) [] hl hn
  unfold find
  rw [show fromDict (setting P).E.P (orca (some shape)) = .ok _ from orca_fromDict P _]
  simp only [run, List.foldl_nil]
  rw [← hq]
  generalize hs : (start (setting P) ⟨some (.int 1), some []⟩ () (files true) true : St (setting P) Nat) = s at hf
  have hfo : (source conn s q).findEntry q = .ok none := by
    simp only [source]
    generalize Index.findEntry (reqOf q) s.db = y at hf
    obtain ⟨y, db⟩ := y
    simp only at hf
    subst hf
    rfl
  have hg : (MemCache.get (setting P).world.key (setting P).sizeFn (source conn s q) q s.mem).1.res = .ok (none, none) := by
    rw [← hs] at hfo ⊢
    unfold MemCache.get MemCache.createWithPreCheck
    rw [hfo]
    rfl
  rw [hg]
  rfl

end Demo

end Verif.Remote
