import Verif.Remote.Model
import Verif.Regrid.PipelineProps
import Verif.Index.Props2
import Verif.MemCache.Props

/-! # C97: regridding with a remote inventory -/

namespace Verif.Remote
open Verif.GridSpec Verif.Regrid Verif.DiskCache.Download

variable {α B D : Type} {S : Setting α B}

/-! ### Specification -/

/-- The index file `f` was on the server at some time. -/
def Published (f0 : Index.IndexFile) (h : List (Op S D)) (f : Index.IndexFile) : Prop := f = f0 ∨ ∃ sha, Op.session (.publish f sha) ∈ h

/-- The content `b` was on the server at some time under that URL. -/
def Served (server0 : String → Option B) (h : List (Op S D)) (url : String) (b : B) : Prop := server0 url = some b ∨ Op.serve url (some b) ∈ h

/-- The grids of the calls of a history are usable. -/
def HistoryUsable (h : List (Op S D)) : Prop := ∀ c x di dO m, Op.regrid c x di dO m ∈ h → Usable S.world di ∧ Usable S.world dO

/-- The weights are those that were on the server under the path of an entry of an index that was on the server, the first entry
of it that answers the request; the shape is that of the same entry. -/
def Proven (S : Setting α B) (pubIx : Index.IndexFile → Prop) (pubW : String → B → Prop) (gi go : GS) (m : List Char) (z : Csr α) (shape : List Nat) : Prop :=
  ∃ f ix e path b, pubIx f ∧ Index.load S.E.P f = .ok ix ∧ Answers S.world ix gi go (Index.methodAlias m) e ∧
    Index.matrixPath e = .ok path ∧ pubW (urlOf S path) b ∧ S.parse b = .ok z ∧ shapeOf e = .ok shape

/-! ### The in-memory cache keeps what creation gives -/

section
variable {Q K W T : Type} [LinearOrder K]

theorem get_items (key : Q → K) (sizeFn : W → Nat) (src : MemCache.Source Q W T) (q : Q) (s : MemCache.Cache K W T) (hacc : MemCache.Acc s)
    (G : K → Option W × Option T → Prop) (hs : ∀ it ∈ s.items, G it.key it.data) (hc : ∀ d, src.create q = .ok d → G (key q) d) :
    (∀ it ∈ (MemCache.get key sizeFn src q s).2.items, G it.key it.data) ∧
    ∀ d, (MemCache.get key sizeFn src q s).1.res = .ok d → G (key q) d := by
  have h := MemCache.get_cases key sizeFn src q s hacc
  generalize (MemCache.get key sizeFn src q s).1 = o at h
  generalize (MemCache.get key sizeFn src q s).2 = s' at h
  cases h with
  | off => exact ⟨hs, hc⟩
  | hit _ l1 it l2 hi hk =>
    refine ⟨fun x hx => ?_, fun d hd => ?_⟩
    · apply hs; rw [hi]; simp at hx ⊢; grind
    · cases hd; rw [← hk]; exact hs it (by rw [hi]; simp)
  | unlErr => exact ⟨hs, fun d hd => by cases hd⟩
  | unlNone _ _ sh hc' => exact ⟨hs, fun d hd => by cases hd; exact hc _ hc'⟩
  | unlSome _ _ w sh hc' =>
    refine ⟨fun x hx => ?_, fun d hd => by cases hd; exact hc _ hc'⟩
    simp at hx
    rcases hx with hx | rfl
    · exact hs x hx
    · exact hc _ hc'
  | limErr _ _ ev kept ho => exact ⟨fun x hx => hs x (ho.sub.subset hx), fun d hd => by cases hd⟩
  | limNone _ _ ev kept ho _ sh hc' => exact ⟨fun x hx => hs x (ho.sub.subset hx), fun d hd => by cases hd; exact hc _ hc'⟩
  | limSome _ _ ev kept ho _ w sh hc' _ _ _ ev2 kept2 ho2 =>
    refine ⟨fun x hx => ?_, fun d hd => by cases hd; exact hc _ hc'⟩
    have := ho2.sub.subset hx
    simp at this
    rcases this with hx | rfl
    · exact hs x (ho.sub.subset hx)
    · exact hc _ hc'
  | limBad _ _ w sh hc' =>
    refine ⟨fun x hx => ?_, fun d hd => by cases hd⟩
    simp at hx
    rcases hx with hx | rfl
    · exact hs x hx
    · exact hc _ hc'

theorem update_items (cfg : MemCache.Cfg) (s : MemCache.Cache K W T) (hacc : MemCache.Acc s)
    (G : K → Option W × Option T → Prop) (hs : ∀ it ∈ s.items, G it.key it.data) :
    ∀ it ∈ (MemCache.update cfg s).2.items, G it.key it.data := by
  have h := MemCache.update_cases cfg s hacc
  generalize MemCache.update cfg s = r at h
  cases h with
  | same e s' hi => simp only; rw [hi]; exact hs
  | off s' _ hi => simp [hi]
  | evict s' _ _ _ _ ev kept _ ho hi => simp only; rw [hi]; exact fun x hx => hs x (ho.sub.subset hx)

end

/-! ### The index in memory is a published one -/

section
variable {E : Index.Env}

/-- Everything the index object can see was published; `P` says what was. -/
structure IdxOk (P : Index.IndexFile → Prop) (s : Index.Db E) : Prop where
  remote : P s.w.remote
  cached : ∀ p, s.w.cached = some p → P p.1
  tmp : ∀ n f, s.w.tmp n = some f → P f
  index : ∀ ix, s.index = some ix → ix = [] ∨ ∃ f, P f ∧ Index.load E.P f = .ok ix

theorem IdxOk.of_eq {P : Index.IndexFile → Prop} {s s' : Index.Db E} (h : IdxOk P s) (h1 : s'.w.remote = s.w.remote) (h2 : s'.w.cached = s.w.cached)
    (h3 : s'.w.tmp = s.w.tmp) (h4 : s'.index = s.index) : IdxOk P s' :=
  ⟨by rw [h1]; exact h.remote, by rw [h2]; exact h.cached, by rw [h3]; exact h.tmp, by rw [h4]; exact h.index⟩

theorem IdxOk.mono {P P' : Index.IndexFile → Prop} {s : Index.Db E} (h : IdxOk P s) (hp : ∀ f, P f → P' f) : IdxOk P' s :=
  ⟨hp _ h.remote, fun p e => hp _ (h.cached p e), fun n f e => hp _ (h.tmp n f e),
    fun ix e => (h.index ix e).imp id (fun ⟨f, a, b⟩ => ⟨f, hp f a, b⟩)⟩

theorem remoteSha_ok (P : Index.IndexFile → Prop) (s : Index.Db E) (h : IdxOk P s) : IdxOk P (Index.remoteSha s).2 := by
  unfold Index.remoteSha
  simp only
  split <;> exact h.of_eq rfl rfl rfl rfl

theorem fetchIndex_ok (P : Index.IndexFile → Prop) (s : Index.Db E) (h : IdxOk P s) :
    IdxOk P (Index.fetchIndex s).2 ∧ ∀ f, (Index.fetchIndex s).1 = .ok f → P f := by
  unfold Index.fetchIndex
  simp only
  split
  · exact ⟨h.of_eq rfl rfl rfl rfl, fun f e => by cases e; exact h.remote⟩
  · exact ⟨h.of_eq rfl rfl rfl rfl, fun f e => by cases e⟩

theorem forceOf_ok (P : Index.IndexFile → Prop) (f : Index.Force) (o : Option E.Sha) (s : Index.Db E) (h : IdxOk P s) :
    IdxOk P (Index.forceOf f o s).2 := by
  have hr := remoteSha_ok P s h
  cases f with
  | no => exact h
  | compare =>
    cases o with
    | none => exact h
    | some l =>
      simp only [Index.forceOf]
      generalize Index.remoteSha s = x at hr
      obtain ⟨x, s1⟩ := x
      cases x with
      | error e => exact hr
      | ok r => exact hr.of_eq rfl rfl rfl rfl
  | force =>
    simp only [Index.forceOf]
    generalize Index.remoteSha s = x at hr
    obtain ⟨x, s1⟩ := x
    cases x with
    | error e => exact hr
    | ok r => exact hr.of_eq rfl rfl rfl rfl

theorem createCached_ok (P : Index.IndexFile → Prop) (s : Index.Db E) (h : IdxOk P s) : IdxOk P (Index.createCached s).2 := by
  unfold Index.createCached
  cases hc : s.w.cached with
  | some p => exact h
  | none =>
    simp only
    have hf := fetchIndex_ok P s h
    generalize Index.fetchIndex s = x at hf
    obtain ⟨x, s1⟩ := x
    cases x with
    | error e => exact hf.1
    | ok f =>
      refine ⟨hf.1.remote, fun p e => ?_, hf.1.tmp, hf.1.index⟩
      cases e
      exact hf.2 f rfl

theorem getIndex_ok (P : Index.IndexFile → Prop) (f : Index.Force) (s : Index.Db E) (h : IdxOk P s) : IdxOk P (Index.getIndex f s).2 := by
  unfold Index.getIndex
  split
  · cases hc : s.w.cached with
    | none => exact createCached_ok P s h
    | some p =>
      obtain ⟨c, o⟩ := p
      simp only
      have hf := forceOf_ok P f o s h
      generalize Index.forceOf f o s = x at hf
      obtain ⟨x, s1⟩ := x
      cases x with
      | error e => exact hf
      | ok b =>
        cases b with
        | true => exact createCached_ok P _ ⟨hf.remote, (fun p e => by cases e), hf.tmp, hf.index⟩
        | false => exact createCached_ok P _ hf
  · have hf := fetchIndex_ok P s h
    generalize Index.fetchIndex s = x at hf
    obtain ⟨x, s1⟩ := x
    cases x with
    | error e => exact hf.1
    | ok c =>
      refine ⟨hf.1.remote, hf.1.cached, fun n f e => ?_, hf.1.index⟩
      simp only at e
      split at e
      · cases e; exact hf.2 c rfl
      · exact hf.1.tmp n f e

theorem reload_ok (P : Index.IndexFile → Prop) (f : Index.Force) (s : Index.Db E) (h : IdxOk P s) : IdxOk P (Index.reload f s).2 := by
  have hg := getIndex_ok P f s h
  unfold Index.reload
  generalize Index.getIndex f s = x at hg
  obtain ⟨x, s1⟩ := x
  cases x with
  | error e => exact hg
  | ok p => exact hg.of_eq rfl rfl rfl rfl

theorem indexPath_ok (P : Index.IndexFile → Prop) (s : Index.Db E) (h : IdxOk P s) : IdxOk P (Index.indexPath s).2 := by
  unfold Index.indexPath
  split
  · exact h
  · have hg := getIndex_ok P .no s h
    generalize Index.getIndex .no s = x at hg
    obtain ⟨x, s1⟩ := x
    cases x with
    | error e => exact hg
    | ok p => exact hg.of_eq rfl rfl rfl rfl

theorem read_ok (P : Index.IndexFile → Prop) (s : Index.Db E) (h : IdxOk P s) (p : Index.IndexPath) (f : Index.IndexFile)
    (hr : s.w.read p = some f) : P f := by
  cases p with
  | cache =>
    simp only [Index.World.read, Option.map_eq_some_iff] at hr
    obtain ⟨q, hq, rfl⟩ := hr
    exact h.cached q hq
  | tmp n => exact h.tmp n f hr

theorem loadIndex_ok (P : Index.IndexFile → Prop) (s : Index.Db E) (h : IdxOk P s) : IdxOk P (Index.loadIndex s).2 := by
  unfold Index.loadIndex
  have hg := indexPath_ok P { s with index := some [] } ⟨h.remote, h.cached, h.tmp, fun ix e => by cases e; exact .inl rfl⟩
  generalize Index.indexPath { s with index := some [] } = x at hg
  obtain ⟨x, s1⟩ := x
  cases x with
  | error e => exact hg
  | ok p =>
    simp only
    cases hr : s1.w.read p with
    | none => exact hg
    | some f =>
      simp only
      cases hl : Index.load E.P f with
      | error e => exact hg
      | ok ix => exact ⟨hg.remote, hg.cached, hg.tmp, fun ix' e => by cases e; exact .inr ⟨f, read_ok P s1 hg p f hr, hl⟩⟩

theorem ensureIndex_ok (P : Index.IndexFile → Prop) (s : Index.Db E) (h : IdxOk P s) : IdxOk P (Index.ensureIndex s).2 := by
  unfold Index.ensureIndex
  split
  · exact h
  · exact loadIndex_ok P s h

theorem findEntry_ok (P : Index.IndexFile → Prop) (r : Index.Req) (s : Index.Db E) (h : IdxOk P s) : IdxOk P (Index.findEntry r s).2 := by
  unfold Index.findEntry
  have h1 := ensureIndex_ok P s h
  generalize Index.ensureIndex s = x at h1
  obtain ⟨x, s1⟩ := x
  cases x with
  | some e => exact h1
  | none =>
    simp only
    cases Index.lookIn r s1 with
    | error e => exact h1
    | ok v =>
      cases v with
      | some e => exact h1
      | none =>
        simp only
        split
        · exact h1
        · have h2 := reload_ok P .compare s1 h1
          generalize Index.reload .compare s1 = x at h2
          obtain ⟨x, s2⟩ := x
          cases x with
          | some e => exact h2
          | none =>
            simp only
            have h3 := loadIndex_ok P s2 h2
            generalize Index.loadIndex s2 = x at h3
            obtain ⟨x, s3⟩ := x
            cases x <;> exact h3

theorem sessionStep_ok (P : Index.IndexFile → Prop) (o : Index.Op E) (s : Index.Db E) (h : IdxOk P s) (hp : ∀ f sha, o = .publish f sha → P f) :
    IdxOk P (Index.step o s) := by
  cases o with
  | lookup r => exact findEntry_ok P r s h
  | refresh =>
    simp only [Index.step]
    have h2 := reload_ok P .force s h
    generalize Index.reload .force s = x at h2
    obtain ⟨x, s2⟩ := x
    cases x with
    | some e => exact h2
    | none => exact loadIndex_ok P s2 h2
  | publish f sha => exact ⟨hp f sha rfl, h.cached, h.tmp, h.index⟩
  | network a b => exact h.of_eq rfl rfl rfl rfl
  | evict => exact ⟨h.remote, (fun p e => by cases e), h.tmp, h.index⟩
  | policy b => exact h.of_eq rfl rfl rfl rfl

/-- An index that was loaded has each name once. -/
theorem load_clean (P : Py) (f : Index.IndexFile) (ix : Index.Index) (h : Index.load P f = .ok ix) : Index.Clean P ix := by
  have hone : ∀ (ix : Index.Index) (e : String × Index.Raw), Index.Clean P ix → Index.Clean P (Index.loadOne P ix e) := by
    intro ix e hc
    unfold Index.loadOne
    cases hp : Index.parse P e.2 with
    | error x => exact hc
    | ok p =>
      obtain ⟨gi, go⟩ := p
      refine ⟨Index.upsert_nodup _ _ _ hc.nodup, fun x hx => ?_⟩
      rcases Index.upsert_mem _ _ _ _ hx with rfl | hx
      · refine ⟨rfl, rfl, ?_⟩
        unfold Index.parse at hp
        cases h1 : e.2.input with
        | none => rw [h1] at hp; cases hp
        | some i =>
          rw [h1] at hp
          simp only [bind_ok] at hp
          obtain ⟨gi', hgi, hp⟩ := hp
          cases h2 : e.2.output with
          | none => rw [h2] at hp; cases hp
          | some o =>
            rw [h2] at hp
            simp only [bind_ok, pure_ok] at hp
            obtain ⟨go', hgo, hp⟩ := hp
            cases hp
            exact ⟨⟨i, rfl, hgi⟩, ⟨o, rfl, hgo⟩⟩
      · exact hc.forms x hx
  have hall : ∀ (es : List (String × Index.Raw)) (ix : Index.Index), Index.Clean P ix → Index.Clean P (es.foldl (Index.loadOne P) ix) := by
    intro es
    induction es with
    | nil => exact fun ix hc => hc
    | cons e es ih => exact fun ix hc => ih _ (hone ix e hc)
  unfold Index.load at h
  split at h
  · cases hm : f.matrix with
    | none => rw [hm] at h; cases h
    | some es => rw [hm] at h; cases h; exact hall es [] ⟨by simp, by simp⟩
  · cases h

/-- An entry that is found is the first that answers, in a published index. -/
theorem found_in (P : Index.IndexFile → Prop) (q : Request) (s s' : Index.Db E) (h : IdxOk P s) (e : Index.Entry)
    (hf : Index.findEntry (reqOf q) s = (.ok (some e), s')) (hi : fromDict E.P q.gi.d = .ok q.gi) (ho : fromDict E.P q.go.d = .ok q.go) :
    ∃ f ix, P f ∧ Index.load E.P f = .ok ix ∧ s'.index = some ix ∧
      ∃ pre k post, ix = pre ++ (k, e) :: post ∧ Index.Hit E.P E.order q.gi q.go (Index.methodAlias q.method) e ∧
        ∀ x ∈ pre, Index.Miss E.P E.order q.gi q.go (Index.methodAlias q.method) x.2 := by
  have h1 := Index.look_hit _ _ _ (Index.findEntry_hit _ _ _ _ hf)
  have h2 := findEntry_ok P (reqOf q) s h
  rw [hf] at h2
  have h3 := (Index.C39_first_match E.P E.order _ _ _ _ q.gi q.go hi ho e).1 h1
  cases hix : s'.index with
  | none => rw [hix] at h3; obtain ⟨pre, k, post, h4, _⟩ := h3; cases pre <;> cases h4
  | some ix =>
    rw [hix] at h3
    rcases h2.index ix hix with rfl | ⟨f, hf1, hf2⟩
    · obtain ⟨pre, k, post, h4, _⟩ := h3; cases pre <;> cases h4
    · exact ⟨f, ix, hf1, hf2, rfl, h3⟩

end

/-! ### The files of the disk cache were on the server under their URL -/

/-- `P` says what was on the server. -/
def DiskOk (P : String → B → Prop) (s : Disk B D) : Prop := ∀ o u p x b, s.files (.keyed o u p x) = some b → P u b

theorem fetch_ok (P : String → B → Prop) (dl : Downloader B D) (l : Loc) (url : String) (s : Disk B D) (h : DiskOk P s)
    (hd : ∀ b, dl.download = .ok b → P url b) (hl : ∀ o u p x, l = .keyed o u p x → u = url) :
    DiskOk P (fetch dl l s).2 ∧ ∀ l' b, (fetch dl l s).1 = .ok l' → (fetch dl l s).2.files l' = some b → P url b := by
  unfold fetch
  cases hx : dl.download with
  | error e => exact ⟨h, fun l' b e => by cases e⟩
  | ok c =>
    simp only
    refine ⟨fun o u p x b hb => ?_, fun l' b e hb => ?_⟩
    · simp only at hb
      split at hb
      · rename_i heq
        cases hb
        rw [hl o u p x heq.symm]
        exact hd _ hx
      · exact h o u p x b hb
    · cases e
      simp only [if_true] at hb
      cases hb
      exact hd _ hx

theorem drop_ok (P : String → B → Prop) (l : Loc) (s : Disk B D) (h : DiskOk P s) : DiskOk P (drop l s) := by
  intro o u p x b hb
  unfold drop at hb
  simp only at hb
  split at hb
  · cases hb
  · exact h o u p x b hb

theorem decide_files (cfg : String → Except Config.Err Config.V) (CP : Config.Py) (dl : Downloader B D) (u : Bool) (old : B) (data : Option D) (s : Disk B D)
    (f : Verif.DiskCache.Download.Force) : (decide' cfg CP dl u old data s f).2.files = s.files := by
  cases f with
  | default =>
    simp only [decide', outOfDate]
    cases cfg "check-out-of-date-urls" with
    | error e => rfl
    | ok x =>
      simp only
      split
      · rfl
      · cases dl.outOfDate old data with
        | error e => rfl
        | ok b =>
          cases b with
          | false => rfl
          | true => simp only; cases cfg "download-out-of-date-urls" <;> rfl
  | value b => rfl
  | callable r => rfl

theorem cacheFileAt_ok (P : String → B → Prop) (cfg : String → Except Config.Err Config.V) (CP : Config.Py) (dl : Downloader B D) (u : Bool)
    (f : Verif.DiskCache.Download.Force) (o url : String) (p : Option String) (x : String) (s : Disk B D) (h : DiskOk P s)
    (hd : ∀ b, dl.download = .ok b → P url b) :
    DiskOk P (cacheFileAt cfg CP dl u f (.keyed o url p x) s).2 ∧
    ∀ l' b, (cacheFileAt cfg CP dl u f (.keyed o url p x) s).1 = .ok l' →
      (cacheFileAt cfg CP dl u f (.keyed o url p x) s).2.files l' = some b → P url b := by
  unfold cacheFileAt
  cases hf : s.files (.keyed o url p x) with
  | none => exact fetch_ok P dl _ url s h hd (fun _ _ _ _ e => by cases e; rfl)
  | some old =>
    simp only
    have hfiles := decide_files cfg CP dl u old (s.data (.keyed o url p x)) s f
    generalize decide' cfg CP dl u old (s.data (.keyed o url p x)) s f = y at hfiles
    obtain ⟨y, s1⟩ := y
    simp only at hfiles
    have h1 : DiskOk P s1 := fun o u p x b hb => h o u p x b (by rw [← hfiles]; exact hb)
    cases y with
    | error e => exact ⟨h1, fun l' b e => by cases e⟩
    | ok r =>
      cases r with
      | true => exact fetch_ok P dl _ url _ (drop_ok P _ _ h1) hd (fun _ _ _ _ e => by cases e; rfl)
      | false =>
        refine ⟨h1, fun l' b e hb => ?_⟩
        cases e
        exact h1 _ _ _ _ _ hb

theorem download_ok (P : String → B → Prop) (cfg : String → Except Config.Err Config.V) (CP : Config.Py) (managed : Bool) (dl : Downloader B D)
    (c : Call) (s : Disk B D) (h : DiskOk P s) (hd : ∀ b, dl.download = .ok b → P c.url b) :
    DiskOk P (downloadAndCache cfg CP managed dl c s).2 ∧
    ∀ l b, (downloadAndCache cfg CP managed dl c s).1 = .ok (some l) → (downloadAndCache cfg CP managed dl c s).2.files l = some b → P c.url b := by
  unfold downloadAndCache
  cases cfg "url-download-timeout" with
  | error e => exact ⟨h, fun l b e => by cases e⟩
  | ok v =>
    simp only
    obtain ⟨s1, e1⟩ : ∃ s1, s1 = (if dl.asksExtension then s.ask .extension else s) := ⟨_, rfl⟩
    rw [← e1]
    have h1 : DiskOk P s1 := by rw [e1]; split <;> exact h
    cases dl.extension with
    | error e => exact ⟨h1, fun l b e => by cases e⟩
    | ok ext =>
      simp only
      cases dl.localPath with
      | some p => exact ⟨h1, fun l b e => by cases e⟩
      | none =>
        simp only
        have key : ∀ y : Except DErr Loc × Disk B D, (DiskOk P y.2 ∧ ∀ l' b, y.1 = .ok l' → y.2.files l' = some b → P c.url b) →
            DiskOk P (returned y).2 ∧ ∀ l b, (returned y).1 = .ok (some l) → (returned y).2.files l = some b → P c.url b := by
          rintro ⟨y, s2⟩ ⟨ha, hb⟩
          cases y with
          | error e => exact ⟨ha, fun l b e => by cases e⟩
          | ok l => exact ⟨ha, fun l' b e hf => by cases e; exact hb l b rfl hf⟩
        apply key
        cases managed with
        | true => exact cacheFileAt_ok P cfg CP dl c.updateFlag c.force c.owner c.url c.parts ext s1 h1 hd
        | false => exact fetch_ok P dl (.unique s1.next) c.url _ h1 hd (fun _ _ _ _ e => by cases e)

/-! ### The whole -/

/-- What holds after every history. -/
structure Ok (pubIx : Index.IndexFile → Prop) (pubW : String → B → Prop) (s : St S D) : Prop where
  idx : IdxOk pubIx s.db
  disk : DiskOk pubW s.disk
  server : ∀ u b, s.server u = some b → pubW u b
  acc : MemCache.Acc s.mem
  mem : ∀ it ∈ s.mem.items, ∃ q, Made S.world q ∧ S.world.key q = it.key ∧
    ∀ z sh, it.data = (some z, some sh) → Proven S pubIx pubW q.gi q.go q.method z sh

theorem Proven.mono {pubIx pubIx' : Index.IndexFile → Prop} {pubW pubW' : String → B → Prop} (h1 : ∀ f, pubIx f → pubIx' f)
    (h2 : ∀ u b, pubW u b → pubW' u b) {gi go : GS} {m : List Char} {z : Csr α} {sh : List Nat} (h : Proven S pubIx pubW gi go m z sh) :
    Proven S pubIx' pubW' gi go m z sh := by
  obtain ⟨f, ix, e, path, b, a1, a2, a3, a4, a5, a6⟩ := h
  exact ⟨f, ix, e, path, b, h1 f a1, a2, a3, a4, h2 _ b a5, a6⟩

theorem Ok.mono {pubIx pubIx' : Index.IndexFile → Prop} {pubW pubW' : String → B → Prop} (h1 : ∀ f, pubIx f → pubIx' f)
    (h2 : ∀ u b, pubW u b → pubW' u b) {s : St S D} (h : Ok pubIx pubW s) : Ok pubIx' pubW' s :=
  ⟨h.idx.mono h1, fun o u p x b e => h2 _ _ (h.disk o u p x b e), fun u b e => h2 _ _ (h.server u b e), h.acc,
    fun it hit => (h.mem it hit).imp (fun _ ⟨a, b, c⟩ => ⟨a, b, fun z sh e => (c z sh e).mono h1 h2⟩)⟩

theorem served_ok {up : Bool} {x : Option B} {b : B} (h : served up x = .ok b) : x = some b := by
  cases up <;> cases x <;> cases h
  rfl

theorem loadMatrix_ok (pubW : String → B → Prop) (c : Conn B D) (managed : Bool) (server : String → Option B) (e : Index.Entry) (disk : Disk B D)
    (hd : DiskOk pubW disk) (hs : ∀ u b, server u = some b → pubW u b) :
    DiskOk pubW (loadMatrix S c managed server e disk).2 ∧
    ∀ z, (loadMatrix S c managed server e disk).1 = .ok z →
      ∃ path b, Index.matrixPath e = .ok path ∧ pubW (urlOf S path) b ∧ S.parse b = .ok z := by
  unfold loadMatrix
  cases hp : Index.matrixPath e with
  | error x => exact ⟨hd, fun z e => by cases e⟩
  | ok path =>
    simp only
    have h := download_ok pubW c.cfg S.CP managed (c.downloader server (urlOf S path)) (weightsCall S path) disk hd
      (fun b hb => hs _ b (served_ok hb))
    generalize downloadAndCache c.cfg S.CP managed (c.downloader server (urlOf S path)) (weightsCall S path) disk = y at h
    obtain ⟨y, d1⟩ := y
    cases y with
    | error x => exact ⟨h.1, fun z e => by cases e⟩
    | ok l =>
      refine ⟨h.1, fun z hz => ?_⟩
      simp only at hz
      cases l with
      | none => cases hz
      | some l =>
        simp only [loadFile] at hz
        cases hb : d1.files l with
        | none => rw [hb] at hz; cases hz
        | some b => rw [hb] at hz; exact ⟨path, b, rfl, h.2 l b rfl hb, hz⟩

theorem loadOut_ok (pubW : String → B → Prop) (c : Conn B D) (db : Index.Db S.E) (s : St S D) (m : Option MemCache.Entry)
    (hd : DiskOk pubW s.disk) (hs : ∀ u b, s.server u = some b → pubW u b) :
    DiskOk pubW (loadOut c db s m).2 ∧
    ∀ z sh, (loadOut c db s m).1 = .ok (some z, some sh) → ∃ m' e path b, m = some m' ∧ entryAt db m' = some e ∧
      Index.matrixPath e = .ok path ∧ pubW (urlOf S path) b ∧ S.parse b = .ok z ∧ shapeOf e = .ok sh := by
  cases m with
  | none => exact ⟨hd, fun z sh e => by cases e⟩
  | some m =>
    simp only [loadOut]
    cases he : entryAt db m with
    | none => exact ⟨hd, fun z sh e => by cases e⟩
    | some e =>
      simp only [createFrom]
      have h := loadMatrix_ok (S := S) pubW c db.w.managed s.server e s.disk hd hs
      generalize loadMatrix S c db.w.managed s.server e s.disk = y at h
      obtain ⟨y, d1⟩ := y
      cases y with
      | error x => exact ⟨h.1, fun z sh e => by cases e⟩
      | ok z =>
        simp only
        cases hsh : shapeOf e with
        | error x => exact ⟨h.1, fun z sh e => by cases e⟩
        | ok sh =>
          refine ⟨h.1, fun z' sh' hz => ?_⟩
          cases hz
          obtain ⟨path, b, a1, a2, a3⟩ := h.2 z rfl
          exact ⟨m, e, path, b, rfl, he, a1, a2, a3, hsh⟩

/-- What creation gives. -/
theorem create_ok (pubIx : Index.IndexFile → Prop) (pubW : String → B → Prop) (c : Conn B D) (s : St S D) (q : Request) (h : Ok pubIx pubW s)
    (hi : fromDict S.E.P q.gi.d = .ok q.gi) (ho : fromDict S.E.P q.go.d = .ok q.go) (z : Csr α) (sh : List Nat)
    (hc : (source c s q).create q = .ok (some z, some sh)) : Proven S pubIx pubW q.gi q.go q.method z sh := by
  unfold MemCache.Source.create source at hc
  simp only at hc
  cases hf : Index.findEntry (reqOf q) s.db with
  | mk r db =>
    rw [hf] at hc
    cases r with
    | error e => cases hc
    | ok r =>
      cases r with
      | none => cases hc
      | some e =>
        simp only [foundOut] at hc
        obtain ⟨m', e', path, b, a1, a2, a3, a4, a5, a6⟩ := (loadOut_ok pubW c db s _ h.disk h.server).2 z sh hc
        cases a1
        obtain ⟨f, ix, b1, b2, b3, pre, k, post, b4, b5⟩ := found_in pubIx q s.db db h.idx e hf hi ho
        have hm : (k, e) ∈ ix := by rw [b4]; simp
        have hg := getElem_posOf S.world ix (load_clean S.E.P f ix b2) k e hm
        simp only [entryAt, b3, Option.getD_some, hg, Option.map_some, Option.some.injEq] at a2
        subst a2
        exact ⟨f, ix, e, path, b, b1, b2, ⟨pre, k, post, b4, b5⟩, a3, a4, a5, a6⟩

theorem afterCalls_ok (pubIx : Index.IndexFile → Prop) (pubW : String → B → Prop) (c : Conn B D) (s : St S D) (q : Request) (h : Ok pubIx pubW s)
    (cs : List (MemCache.Call Request)) : Ok pubIx pubW (afterCalls c s q cs) ∧ (afterCalls c s q cs).mem = s.mem := by
  have hf := findEntry_ok pubIx (reqOf q) s.db h.idx
  unfold afterCalls
  split
  · exact ⟨h, rfl⟩
  · exact ⟨⟨hf, h.disk, h.server, h.acc, h.mem⟩, rfl⟩
  · exact ⟨⟨hf, (loadOut_ok pubW c _ s _ h.disk h.server).1, h.server, h.acc, h.mem⟩, rfl⟩
  · exact ⟨h, rfl⟩

theorem find_ok (hw : S.world.Sane) (pubIx : Index.IndexFile → Prop) (pubW : String → B → Prop) (c : Conn B D) (di dO : Dict) (m : List Char)
    (ui : Usable S.world di) (uo : Usable S.world dO) (s : St S D) (h : Ok pubIx pubW s) :
    Ok pubIx pubW (find c di dO m s).2 ∧ ∀ z sh, (find c di dO m s).1 = .ok (some (z, sh)) →
      ∃ gi go, fromDict S.E.P di = .ok gi ∧ fromDict S.E.P dO = .ok go ∧ Proven S pubIx pubW gi go m z sh := by
  unfold find
  cases hi : fromDict S.E.P di with
  | error e => exact ⟨h, fun z sh e => by cases e⟩
  | ok gi =>
    cases ho : fromDict S.E.P dO with
    | error e => exact ⟨h, fun z sh e => by cases e⟩
    | ok go =>
      simp only
      have hq : Made S.world ⟨gi, go, m⟩ := ⟨di, dO, ui, uo, hi, ho⟩
      have hg := get_items S.world.key S.sizeFn (source c s ⟨gi, go, m⟩) ⟨gi, go, m⟩ s.mem h.acc
        (fun k d => ∃ q, Made S.world q ∧ S.world.key q = k ∧ ∀ z sh, d = (some z, some sh) → Proven S pubIx pubW q.gi q.go q.method z sh)
        h.mem (fun d hd => ⟨_, hq, rfl, fun z sh e => create_ok pubIx pubW c s _ h (C31_idempotent _ _ _ hi) (C31_idempotent _ _ _ ho) z sh (by rw [hd, e])⟩)
      have hacc := MemCache.get_acc S.world.key S.sizeFn (source c s ⟨gi, go, m⟩) ⟨gi, go, m⟩ s.mem h.acc
      generalize MemCache.get S.world.key S.sizeFn (source c s ⟨gi, go, m⟩) ⟨gi, go, m⟩ s.mem = y at hg hacc
      obtain ⟨⟨res, cs⟩, t⟩ := y
      have ha := (afterCalls_ok pubIx pubW c s ⟨gi, go, m⟩ h cs).1
      have hs' : Ok pubIx pubW { afterCalls c s ⟨gi, go, m⟩ cs with mem := t } := ⟨ha.idx, ha.disk, ha.server, hacc, hg.1⟩
      cases res with
      | error e => exact ⟨hs', fun z sh e => by cases e⟩
      | ok p =>
        refine ⟨hs', fun z sh e => ⟨gi, go, rfl, rfl, ?_⟩⟩
        obtain ⟨q, q1, q2, q3⟩ := hg.2 p rfl
        have := key_inj S.world hw q ⟨gi, go, m⟩ q1 hq q2
        subst this
        apply q3
        simp only [Except.ok.injEq] at e
        obtain ⟨p1, p2⟩ := p
        cases p1 with
        | none => cases e
        | some z' =>
          cases p2 with
          | none => cases e
          | some sh' => cases e; rfl

section
variable [Zero α] [Add α] [Mul α]

theorem regrid_eq (c : Conn B D) (x : Arr α) (di dO : Dict) (m : List Char) (s : St S D) :
    (regrid c x di dO m s).2 = (find c di dO m s).2 ∧
    (regrid c x di dO m s).1 = match (find c di dO m s).1 with
      | .error e => .error e
      | .ok found => applyWeights found x dO := by
  unfold regrid matrixBackend
  simp only [ne_eq, not_true, if_false]
  generalize find c di dO m s = y
  obtain ⟨y, t⟩ := y
  cases y <;> exact ⟨rfl, rfl⟩

theorem step_ok (hw : S.world.Sane) (pubIx : Index.IndexFile → Prop) (pubW : String → B → Prop) (s : St S D) (h : Ok pubIx pubW s) (o : Op S D)
    (hu : ∀ c x di dO m, o = .regrid c x di dO m → Usable S.world di ∧ Usable S.world dO)
    (hp : ∀ f sha, o = .session (.publish f sha) → pubIx f) (hv : ∀ u b, o = .serve u (some b) → pubW u b) : Ok pubIx pubW (step s o) := by
  cases o with
  | regrid c x di dO m =>
    simp only [step, (regrid_eq c x di dO m s).1]
    exact (find_ok hw pubIx pubW c di dO m (hu c x di dO m rfl).1 (hu c x di dO m rfl).2 s h).1
  | configure cfg => exact ⟨h.idx, h.disk, h.server, MemCache.update_acc cfg s.mem h.acc, update_items cfg s.mem h.acc
      (fun k d => ∃ q, Made S.world q ∧ S.world.key q = k ∧ ∀ z sh, d = (some z, some sh) → Proven S pubIx pubW q.gi q.go q.method z sh) h.mem⟩
  | clear => exact ⟨h.idx, h.disk, h.server, MemCache.Acc.clear s.mem, fun it hit => by cases hit⟩
  | session o => exact ⟨sessionStep_ok pubIx o s.db h.idx (fun f sha e => hp f sha (by rw [e])), h.disk, h.server, h.acc, h.mem⟩
  | serve url b =>
    refine ⟨h.idx, h.disk, fun u b' e => ?_, h.acc, h.mem⟩
    simp only [step] at e
    split at e
    · rename_i hu'; subst hu'; exact hv u b' (by rw [e])
    · exact h.server u b' e
  | evict l => exact ⟨h.idx, drop_ok pubW l s.disk h.disk, h.server, h.acc, h.mem⟩
  | download c call => exact ⟨h.idx, (download_ok pubW _ _ _ _ call s.disk h.disk (fun b hb => h.server _ b (served_ok hb))).1, h.server, h.acc, h.mem⟩
  | restart => exact ⟨⟨h.idx.remote, h.idx.cached, h.idx.tmp, fun ix e => by cases e⟩, h.disk, h.server, MemCache.initial_acc, fun it hit => by cases hit⟩

theorem run_ok (hw : S.world.Sane) (pubIx : Index.IndexFile → Prop) (pubW : String → B → Prop) : ∀ (h : List (Op S D)) (s : St S D), Ok pubIx pubW s →
    HistoryUsable h → (∀ f sha, Op.session (.publish f sha) ∈ h → pubIx f) → (∀ u b, Op.serve u (some b) ∈ h → pubW u b) →
    Ok pubIx pubW (run s h) := by
  intro h
  induction h with
  | nil => intro s hs _ _ _; exact hs
  | cons o h ih =>
    intro s hs hu hp hv
    exact ih (step s o) (step_ok hw pubIx pubW s hs o (fun c x di dO m e => hu c x di dO m (by simp [e])) (fun f sha e => hp f sha (by simp [e]))
      (fun u b e => hv u b (by simp [e]))) (fun c x di dO m e => hu c x di dO m (by simp [e])) (fun f sha e => hp f sha (by simp [e]))
      (fun u b e => hv u b (by simp [e]))

omit [Zero α] [Add α] [Mul α] in
theorem start_ok (pubIx : Index.IndexFile → Prop) (pubW : String → B → Prop) (f0 : Index.IndexFile) (sha0 : S.E.Sha) (server0 : String → Option B)
    (managed0 : Bool) (h1 : pubIx f0) (h2 : ∀ u b, server0 u = some b → pubW u b) : Ok pubIx pubW (start S f0 sha0 server0 managed0 : St S D) :=
  ⟨⟨h1, (fun p e => by cases e), (fun n f e => by cases e), (fun ix e => by cases e)⟩, (fun o u p x b e => by cases e), h2, MemCache.initial_acc,
    fun it hit => by cases hit⟩

end

section
variable {α B D : Type} [CommRing α] {S : Setting α B}
open Finset

/-- C97: whatever was published, fetched, evicted, configured before, in this process or in earlier ones with the same disk cache: values that a
regrid with a remote inventory returns are the product of the given values with weights that were on the server under the path of an entry
of an index that was on the server, the first of that index to answer the request; and they have the shape of that entry. -/
theorem C97_values (hw : S.world.Sane) (hwf : ∀ b z, S.parse b = .ok z → z.WF) (f0 : Index.IndexFile) (sha0 : S.E.Sha)
    (server0 : String → Option B) (managed0 : Bool) (h : List (Op S D)) (hu : HistoryUsable h) (c : Conn B D) (x : Arr α) (di dO : Dict)
    (ui : Usable S.world di) (uo : Usable S.world dO) (m : List Char) (y : Arr α) (g : Dict)
    (hr : (regrid c x di dO m (run (start S f0 sha0 server0 managed0) h)).1 = .ok (y, g)) :
    ∃ gi go f ix e path b z shape, fromDict S.E.P di = .ok gi ∧ fromDict S.E.P dO = .ok go ∧
      Published f0 h f ∧ Index.load S.E.P f = .ok ix ∧ Answers S.world ix gi go (Index.methodAlias m) e ∧
      Index.matrixPath e = .ok path ∧ Served server0 h (urlOf S path) b ∧ S.parse b = .ok z ∧ shapeOf e = .ok shape ∧
      g = dO ∧ y.shape = shape ∧ y.Proper ∧
      ∀ idx, Inside shape idx → y.elem idx = some (∑ j ∈ range z.cols, z.weight (offset shape idx) j * x.flat.getD j 0) := by
  have hok : Ok (Published f0 h) (Served server0 h) (run (start S f0 sha0 server0 managed0) h) :=
    run_ok hw _ _ h _ (start_ok _ _ f0 sha0 server0 managed0 (.inl rfl) (fun u b e => .inl e)) hu (fun f sha e => .inr ⟨sha, e⟩) (fun u b e => .inr e)
  have hf := (find_ok hw _ _ c di dO m ui uo _ hok).2
  rw [(regrid_eq c x di dO m _).2] at hr
  generalize (find c di dO m (run (start S f0 sha0 server0 managed0) h)).1 = r at hf hr
  cases r with
  | error e => cases hr
  | ok found =>
    cases found with
    | none => cases hr
    | some p =>
      obtain ⟨z, shape⟩ := p
      obtain ⟨gi, go, hi, ho, f, ix, e, path, b, a1, a2, a3, a4, a5, a6, a7⟩ := hf z shape rfl
      obtain ⟨p1, p2, p3, p4⟩ := C46_product z (hwf b z a6) shape x dO g y hr
      exact ⟨gi, go, f, ix, e, path, b, z, shape, hi, ho, a1, a2, a3, a4, a5, a6, a7, p3, p1, p2, p4⟩

end

end Verif.Remote
