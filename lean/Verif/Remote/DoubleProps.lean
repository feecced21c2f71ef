import Verif.Remote.Props3
import Verif.Regrid.StrictProps

/-!
# A remote inventory from what is on the server to the values in doubles (C144)
-/

namespace Verif.Remote
open Verif.GridSpec Verif.Regrid Verif.DiskCache.Download

variable {B D : Type} {S : Setting (Fp double) B}

/-! ## Specification -/

/-- Index files as they are published: one version, entries of different names, published grids with shapes, names that are no absolute paths. -/
structure Orderly (P : Py) (f : Index.IndexFile) (es : List (String × Index.Raw)) : Prop where
  version : Index.OneVersion f.version
  entries : f.matrix = some es
  names : (es.map Prod.fst).Nodup
  usable : ∀ e ∈ es, Index.Usable P e.2
  shapes : ∀ e ∈ es, ∃ shape, GivenShape e.2 shape
  tidy : ∀ e ∈ es, e.1.toList.head? ≠ some '/' ∧ e.2.engine.head? ≠ some '/'

/-- A method name that can be the end of a directory name. -/
def Tidy (n : List Char) : Prop := n ≠ [] ∧ n.getLast? ≠ some '/'

/-- Where the weights of an entry are: `base/engine_version_method/name.npz`; the base may end with the slash. -/
def address (base n : List Char) (r : String × Index.Raw) : String :=
  String.ofList ((if base.getLast? = some '/' then base else base ++ ['/']) ++ r.2.engine ++ ['_'] ++ r.2.version ++ ['_'] ++ n ++ ['/'] ++ r.1.toList ++ ".npz".toList)

/-- The weights that reading the file at an address of the server gives. -/
def sent (S : Setting (Fp double) B) (server : String → Option B) (url : String) : Except Regrid.Err (Csr (Fp double)) :=
  match server url with
  | none => .error .other
  | some b => S.parse b

/-! ## Lemmas -/

theorem path_address {e : Index.Entry} {n : List Char} (hb : S.base ≠ []) (hm : Index.MethodIs e.raw n) (hn : Tidy n) (h1 : e.name.toList.head? ≠ some '/')
    (h2 : e.raw.engine.head? ≠ some '/') : ∃ path, Index.matrixPath e = .ok path ∧ urlOf S path = address S.base n e.shown := by
  refine ⟨_, Index.C80_path e n hm hn h1, ?_⟩
  unfold urlOf address Index.join
  congr 1
  split
  · rename_i rest hr
    exfalso
    cases he : e.raw.engine with
    | nil => rw [he] at hr; simp at hr
    | cons c cs => rw [he] at hr h2; simp at hr h2; exact h2 hr.1
  · show _ = _
    by_cases hl : S.base.getLast? = some '/'
    · rw [if_pos (.inr hl), if_pos hl]
      simp [Index.Entry.shown]
    · rw [if_neg (by rintro (h | h); exacts [hb h, hl h]), if_neg hl]
      simp [Index.Entry.shown]

theorem methodIs_of_answers {P : Py} {di dO : Dict} {n : List Char} {r : Index.Raw} (h : Index.Answers P di dO n r) : Index.MethodIs r n := by
  obtain ⟨i, o, hm, _⟩ := h
  exact hm

theorem first_answers {A : Index.Raw → Prop} {es : List (String × Index.Raw)} {r : String × Index.Raw} (h : Index.First A es (some r)) : r ∈ es ∧ A r.2 := by
  generalize hq : some r = q at h
  induction h with
  | nothing => cases hq
  | here x xs h => cases hq; exact ⟨by simp, h⟩
  | later x xs r' _ _ ih => obtain ⟨h1, h2⟩ := ih hq; exact ⟨by simp [h1], h2⟩

/-- What the lookup in an orderly index gives. -/
theorem orderly_find (ho : Enumerates S.E.order) {f : Index.IndexFile} {es} (hf : Orderly S.E.P f es) {di dO : Dict} (pi : GridSpec.Plain S.E.P di)
    (pO : GridSpec.Plain S.E.P dO) {gi go : GS} (hi : fromDict S.E.P di = .ok gi) (hO : fromDict S.E.P dO = .ok go) (n : List Char) :
    ∃ ix r, Index.load S.E.P f = .ok ix ∧ Index.find S.E.P S.E.order ix gi.d go.d n = .ok r ∧
      Index.First (Index.Answers S.E.P di dO n) es (r.map Index.Entry.shown) ∧
      ∀ e, r = some e → (∃ k, (k, e) ∈ ix) ∧ ∃ shape, GivenShape e.shown.2 shape ∧ shapeOf e = .ok shape := by
  obtain ⟨ix, r, hl, hfind, hfirst⟩ := Index.C132_found_partial S.E.P S.E.order ho f es hf.version hf.entries hf.names hf.usable di dO pi pO n
  have hfind' : Index.find S.E.P S.E.order ix gi.d go.d n = .ok r := by
    obtain ⟨gi', go', h1, h2, h3⟩ := (Index.find_ok ..).1 hfind
    rw [hi] at h1; rw [hO] at h2; cases h1; cases h2
    exact (Index.find_ok ..).2 ⟨gi, go, C31_idempotent _ _ _ hi, C31_idempotent _ _ _ hO, h3⟩
  refine ⟨ix, r, hl, hfind', hfirst, ?_⟩
  rintro e rfl
  obtain ⟨ix', hl', hmem, -⟩ := Index.C40_kept S.E.P f es hf.version hf.entries hf.names
  rw [hl] at hl'
  cases hl'
  obtain ⟨pre, k, post, hix, -⟩ := (Index.C39_first_match S.E.P S.E.order ix di dO n gi go hi hO e).1 hfind
  have hin : (k, e) ∈ ix := by rw [hix]; simp
  obtain ⟨raw, hraw, hload⟩ := (hmem (k, e)).1 hin
  obtain ⟨shape, hshape⟩ := hf.shapes _ hraw
  have hsh := shape_loaded hload hshape
  refine ⟨⟨k, hin⟩, shape, ?_, hsh⟩
  show GivenShape e.raw shape
  rw [hload.2.1]; exact hshape

/-- Loading weights for the first time: what is sent. -/
theorem load_sent (c : Conn B D) (managed : Bool) (server : String → Option B) (e : Index.Entry) (disk : Disk B D) (path : List Char)
    (hp : Index.matrixPath e = .ok path) (hc : Fine c (urlOf S path)) (he : ∀ l, disk.files l = none) :
    (loadMatrix S c managed server e disk).1 = sent S server (urlOf S path) := by
  obtain ⟨v, hv⟩ := hc.timeout
  obtain ⟨ext, hx⟩ := hc.extension
  have h1 : (c.downloader server (urlOf S path)).extension = .ok ext := hx
  have h2 : (c.downloader server (urlOf S path)).localPath = none := hc.remote
  obtain ⟨s1, e1⟩ : ∃ s1, s1 = (if (c.downloader server (urlOf S path)).asksExtension then disk.ask .extension else disk) := ⟨_, rfl⟩
  have he1 : ∀ l, s1.files l = none := by intro l; rw [e1]; split <;> exact he l
  unfold loadMatrix sent
  simp only [hp]
  cases hs : server (urlOf S path) with
  | none =>
    have hdl : (c.downloader server (urlOf S path)).download = .error .net := by
      simp only [Conn.downloader, hc.up, hs, served]
    unfold downloadAndCache
    rw [hv]
    simp only [h1, h2]
    rw [← e1]
    cases managed with
    | true => simp only [if_true, cacheFileAt, he1, fetch, hdl, returned]
    | false => simp only [Bool.false_eq_true, if_false, fetch, hdl, returned]
  | some b =>
    have hdl : (c.downloader server (urlOf S path)).download = .ok b := by
      simp only [Conn.downloader, hc.up, hs, served]
    have hd : ∃ disk' l, downloadAndCache c.cfg S.CP managed (c.downloader server (urlOf S path)) (weightsCall S path) disk = (.ok (some l), disk') ∧
        disk'.files l = some b := by
      unfold downloadAndCache
      rw [hv]
      simp only [h1, h2]
      rw [← e1]
      cases managed with
      | true =>
        simp only [if_true, cacheFileAt, he1, fetch, hdl, returned]
        exact ⟨_, _, rfl, by simp⟩
      | false =>
        simp only [Bool.false_eq_true, if_false, fetch, hdl, returned]
        exact ⟨_, _, rfl, by simp⟩
    obtain ⟨disk', l, h3, h4⟩ := hd
    rw [h3]
    simp only [loadFile, h4]

/-- The first lookup, whatever it comes to. -/
theorem first_lookup (f0 : Index.IndexFile) (sha0 : S.E.Sha) (server0 : String → Option B) (managed0 : Bool) (r : Index.Req) (ix : Index.Index)
    (o : Option Index.Entry) (hl : Index.load S.E.P f0 = .ok ix)
    (hf : Index.find S.E.P S.E.order ix r.input r.output (Index.methodAlias r.method) = .ok o) :
    ∃ db, Index.findEntry r (start S f0 sha0 server0 managed0 : St S D).db = (.ok o, db) ∧ db.index = some ix := by
  cases o with
  | some e =>
    cases managed0 with
    | true => exact ⟨_, first_find f0 sha0 server0 r ix e hl hf, rfl⟩
    | false =>
      obtain ⟨db, h1, h2, -⟩ := first_find_off (D := D) f0 sha0 server0 r ix e hl hf
      exact ⟨db, h1, h2⟩
  | none =>
    cases managed0 with
    | true =>
      by_cases hsha : S.E.shaOf f0 = sha0
      · simp [Index.findEntry, Index.ensureIndex, Index.loadIndex, Index.indexPath, Index.getIndex, Index.createCached, Index.fetchIndex, start,
          Index.World.read, hl, Index.lookIn, Index.reload, Index.forceOf, Index.remoteSha, hf, hsha]
      · simp [Index.findEntry, Index.ensureIndex, Index.loadIndex, Index.indexPath, Index.getIndex, Index.createCached, Index.fetchIndex, start,
          Index.World.read, hl, Index.lookIn, Index.reload, Index.forceOf, Index.remoteSha, hf, hsha]
    | false =>
      simp [Index.findEntry, Index.ensureIndex, Index.loadIndex, Index.indexPath, Index.getIndex, Index.createCached, Index.fetchIndex, start,
        Index.World.read, hl, Index.lookIn, Index.reload, hf]

/-- The in-memory cache of a new process gives what is created. -/
theorem new_cache {Q K W T : Type} [LinearOrder K] (key : Q → K) (sizeFn : W → Nat) (src : MemCache.Source Q W T) (q : Q) :
    (MemCache.get key sizeFn src q (MemCache.initial : MemCache.Cache K W T)).1.res = src.create q := by
  rcases get_or_refused key sizeFn src [] (by intro s q h; cases h) (by intro c h; cases h) q (by intro q h; cases h) with h | ⟨-, -, h, -⟩
  · exact h
  · cases h

/-! ## C144 -/

/-- C144: whatever was published, fetched, evicted and configured before, in this process and in earlier ones, on servers whose index files are
orderly: a regrid of documented grids that returns values returns those of the first entry, of one of the index files that were on the server, that
answers it, with weights that were at the address of that entry: in doubles, with the shape of the entry, point by point what `PointD` says. -/
theorem C144_values (hw : S.world.Sane) (ho : Enumerates S.E.order) (hwf : ∀ b z, S.parse b = .ok z → z.WF) (hb : S.base ≠ [])
    (f0 : Index.IndexFile) (sha0 : S.E.Sha) (server0 : String → Option B) (managed0 : Bool) (h : List (Op S D)) (hu : HistoryUsable h)
    (hf : ∀ f, Published f0 h f → ∃ es, Orderly S.E.P f es) (c : Conn B D) (x : Arr (Fp double)) (di dO : Dict)
    (pi : GridSpec.Plain S.E.P di) (pO : GridSpec.Plain S.E.P dO) (ui : Usable S.world di) (uo : Usable S.world dO) (m n : List Char)
    (hm : Regrid.Published m n) (hn : Tidy n) (y : Arr (Fp double)) (g : Dict)
    (hr : (regrid c x di dO m (run (start S f0 sha0 server0 managed0) h)).1 = .ok (y, g)) :
    ∃ f es r b z shape, Published f0 h f ∧ Orderly S.E.P f es ∧ Index.First (Index.Answers S.E.P di dO n) es (some r) ∧
      Served server0 h (address S.base n r) b ∧ S.parse b = .ok z ∧ GivenShape r.2 shape ∧ x.flat.length = z.cols ∧ shape.prod = z.rows ∧
      g = dO ∧ y.shape = shape ∧ y.Proper ∧
      ∀ idx, Inside shape idx → ∃ v, y.elem idx = some v ∧ PointD z x.flat (offset shape idx) v := by
  have hok : Ok (Published f0 h) (Served server0 h) (run (start S f0 sha0 server0 managed0) h) :=
    run_ok hw _ _ h _ (start_ok _ _ f0 sha0 server0 managed0 (.inl rfl) (fun u b e => .inl e)) hu (fun f sha e => .inr ⟨sha, e⟩) (fun u b e => .inr e)
  have hfind := (find_ok hw _ _ c di dO m ui uo _ hok).2
  rw [(regrid_eq c x di dO m _).2] at hr
  generalize (find c di dO m (run (start S f0 sha0 server0 managed0) h)).1 = res at hfind hr
  cases res with
  | error e => cases hr
  | ok found =>
    cases found with
    | none => cases hr
    | some p =>
      obtain ⟨z, shape⟩ := p
      obtain ⟨gi, go, hi, hO, f, ix, e, path, b, a1, a2, a3, a4, a5, a6, a7⟩ := hfind z shape rfl
      obtain ⟨es, hes⟩ := hf f a1
      obtain ⟨ix', r, b1, b2, b3, b4⟩ := orderly_find ho hes pi pO hi hO n
      rw [a2] at b1
      cases b1
      have hans := answers_find ix gi go di dO hi hO m e a3
      rw [show Index.methodAlias (reqOf ⟨gi, go, m⟩).method = n from published_alias hm] at hans
      have : (Except.ok r : Except GridSpec.Err _) = .ok (some e) := b2.symm.trans hans
      cases this
      obtain ⟨-, shape', c1, c2⟩ := b4 e rfl
      rw [a7] at c2
      cases c2
      obtain ⟨d1, d2⟩ := first_answers b3
      obtain ⟨t1, t2⟩ := hes.tidy _ d1
      obtain ⟨path', e1, e2⟩ := path_address (S := S) hb (methodIs_of_answers d2) hn t1 t2
      rw [a4] at e1
      cases e1
      rw [e2] at a5
      obtain ⟨p1, p2, rfl, hy⟩ := (apply_ok' z shape x dO g y).1 hr
      refine ⟨f, es, e.shown, b, z, shape, a1, hes, b3, a5, a6, c1, p1, p2, rfl, ?_, ?_, fun idx hidx => pointD z (hwf b z a6) shape x _ _ y hr idx hidx⟩
      · rw [hy]
      · rw [hy]; simp [Arr.Proper, p2]

/-- C144: what the first regrid on a new installation comes to, with a server that is reachable: the first entry of its index that answers decides,
and the file at the address of that entry; without an entry, ValueError; without a file, the error of the download. -/
theorem C144_first_use (ho : Enumerates S.E.order) (hwf : ∀ b z, S.parse b = .ok z → z.WF) (hb : S.base ≠ [])
    (f0 : Index.IndexFile) (es : List (String × Index.Raw)) (hf : Orderly S.E.P f0 es) (sha0 : S.E.Sha) (server0 : String → Option B) (managed0 : Bool)
    (c : Conn B D) (x : Arr (Fp double)) (di dO : Dict) (pi : GridSpec.Plain S.E.P di) (pO : GridSpec.Plain S.E.P dO) (m n : List Char)
    (hm : Regrid.Published m n) (hn : Tidy n) (hc : ∀ r ∈ es, Fine c (address S.base n r)) :
    OutcomeD S.E.P es (fun r => sent S server0 (address S.base n r)) x di dO n (regrid c x di dO m (start S f0 sha0 server0 managed0)).1 := by
  have hwf' : ∀ r z, sent S server0 (address S.base n r) = .ok z → z.WF := by
    intro r z hz
    unfold sent at hz
    split at hz
    · cases hz
    · exact hwf _ z hz
  apply outcomeD_of_applied hwf'
  obtain ⟨gi, hi⟩ := plain_accepted pi
  obtain ⟨go, hO⟩ := plain_accepted pO
  obtain ⟨ix, r, b1, b2, b3, b4⟩ := orderly_find ho hf pi pO hi hO n
  obtain ⟨s, hs⟩ : ∃ s, s = (start S f0 sha0 server0 managed0 : St S D) := ⟨_, rfl⟩
  have hal : Index.methodAlias (reqOf ⟨gi, go, m⟩).method = n := published_alias hm
  obtain ⟨db, h1, h2⟩ := first_lookup (S := S) (D := D) f0 sha0 server0 managed0 (reqOf ⟨gi, go, m⟩) ix r b1 (by rw [hal]; exact b2)
  rw [← hs] at h1 ⊢
  have hget := new_cache S.world.key S.sizeFn (source c s ⟨gi, go, m⟩) ⟨gi, go, m⟩
  have hmem : s.mem = MemCache.initial := by rw [hs]; rfl
  rw [(regrid_eq c x di dO m _).2]
  unfold find
  rw [hi, hO, hmem]
  simp only
  cases r with
  | none =>
    have hcr : (source c s ⟨gi, go, m⟩).create ⟨gi, go, m⟩ = .ok (none, none) := by
      unfold MemCache.Source.create
      simp only [source, h1, foundOut, loadOut]
    rw [hget, hcr]
    exact .unavailable b3
  | some e =>
    obtain ⟨⟨k, hk⟩, shape, c1, c2⟩ := b4 e rfl
    obtain ⟨d1, d2⟩ := first_answers b3
    obtain ⟨t1, t2⟩ := hf.tidy _ d1
    obtain ⟨path, e1, e2⟩ := path_address (S := S) hb (methodIs_of_answers d2) hn t1 t2
    have hld := load_sent (S := S) c db.w.managed server0 e s.disk path e1 (by rw [e2]; exact hc _ d1) (by intro l; rw [hs]; rfl)
    rw [e2] at hld
    have hserver : s.server = server0 := by rw [hs]; rfl
    have hen : entryAt db ⟨S.memory e, posOf (db.index.getD []) e.name⟩ = some e := by
      simp only [entryAt, h2, Option.getD_some, getElem_posOf S.world ix (load_clean _ f0 ix b1) k e hk, Option.map_some]
    have hcr : (source c s ⟨gi, go, m⟩).create ⟨gi, go, m⟩ =
        (match sent S server0 (address S.base n e.shown) with
          | .error err => .error (.source err.code)
          | .ok z => .ok (some z, some shape)) := by
      unfold MemCache.Source.create
      simp only [source, h1, foundOut, loadOut, hen, createFrom, hserver]
      generalize loadMatrix S c db.w.managed server0 e s.disk = y at hld
      obtain ⟨y, disk⟩ := y
      simp only at hld
      subst hld
      cases sent S server0 (address S.base n e.shown) with
      | error err => rfl
      | ok z => simp only [c2]
    rw [hget, hcr]
    cases hz : sent S server0 (address S.base n e.shown) with
    | error err =>
      simp only [ofCache, code_ofCode]
      exact .unreadable _ err b3 hz
    | ok z => exact .applied _ z shape b3 hz c1

/-! ## The hypotheses can be met -/

namespace Demo
open Verif.Regrid.Demo
open Verif.Index (orca orca_plain icon_unaccepted)

/-- Two possible contents of the weights file: the weights in doubles, and something else. -/
noncomputable def settingD (P : Py) : Setting (Fp double) Bool where
  E := ⟨P, COMPARE_KEYS, Unit, fun _ => ()⟩
  CP := Verif.Config.py
  floatText := floatText
  items := items
  sha := id
  sizeFn := fun _ => 50
  base := "https://x.int/db".toList
  parse := fun b => if b then .ok demoD else .error .value
  memory := fun _ => some 100

theorem base_ok (P : Py) : (settingD P).base ≠ [] := by
  show "https://x.int/db".toList ≠ []
  decide

theorem settingD_wf (P : Py) : ∀ b z, (settingD P).parse b = .ok z → z.WF := by
  intro b z h
  cases b with
  | true => cases h; exact demoD_wf
  | false => cases h

theorem file_orderly (P : Py) : Orderly P file [("i", iconShaped), ("w", raw)] where
  version := .inl rfl
  entries := rfl
  names := by decide
  usable := by
    intro e he
    simp only [List.mem_cons, List.not_mem_nil, or_false] at he
    rcases he with rfl | rfl
    · exact .inr (fun h => icon_unaccepted P h.1)
    · exact .inl ⟨_, _, _, .text _ _ rfl, rfl, rfl, orca_plain P _, orca_plain P _⟩
  shapes := by
    intro e he
    simp only [List.mem_cons, List.not_mem_nil, or_false] at he
    rcases he with rfl | rfl
    · exact ⟨[3, 1], _, _, rfl, rfl, .inl rfl⟩
    · exact ⟨_, raw_shape⟩
  tidy := by
    intro e he
    simp only [List.mem_cons, List.not_mem_nil, or_false] at he
    rcases he with rfl | rfl
    · exact ⟨by decide, by decide⟩
    · exact ⟨by decide, by decide⟩

theorem file_first (P : Py) : Index.First (Index.Answers P (orca (some shape)) (orca (some shape)) "nearest-neighbour".toList)
    [("i", iconShaped), ("w", raw)] (some ("w", raw)) := by
  refine .later _ _ _ ?_ (.here _ _ (raw_answers P))
  rintro ⟨i, o, _, hi, _, _, _, ai, _⟩
  cases hi
  exact icon_unaccepted P ai

theorem address_ok (P : Py) : address (settingD P).base "nearest-neighbour".toList ("w", raw) = url := by
  show address "https://x.int/db".toList _ _ = url
  decide +kernel

/-- `C144_first_use`: the values of the file on the server, missing values included; `C144_values` at the same regrid, when the file was something else
before: the weights are those of a file that was on the server. -/
example (P : Py) (managed : Bool) : ∃ y,
    (regrid conn ⟨[2], [.nan, .fin 1]⟩ (orca (some shape)) (orca (some shape)) "nn".toList
      (run (start (settingD P) file () (fun _ => none) managed) [.serve url (some false), .serve url (some true)])).1 = .ok (y, orca (some shape)) ∧
    y.elem [0, 0] = some .nan ∧
    ∃ f es r b z sh, Published (S := settingD P) (D := Nat) file [.serve url (some false), .serve url (some true)] f ∧ Orderly P f es ∧
      Index.First (Index.Answers P (orca (some shape)) (orca (some shape)) "nearest-neighbour".toList) es (some r) ∧
      (settingD P).parse b = .ok z ∧ GivenShape r.2 sh ∧ y.shape = sh := by
  have hstate : (run (start (settingD P) file () (fun _ => none) managed) [.serve url (some false), .serve url (some true)] : St (settingD P) Nat) =
      start (settingD P) file () (fun u => if u = url then some true else if u = url then some false else none) managed := rfl
  have ho := C144_first_use (S := settingD P) (D := Nat) (fun _ => Iff.rfl) (settingD_wf P) (base_ok P) file _ (file_orderly P) ()
    (fun u => if u = url then some true else if u = url then some false else none) managed conn ⟨[2], [.nan, .fin 1]⟩ _ _
    (orca_plain P (some shape)) (orca_plain P (some shape)) "nn".toList _ .short ⟨by decide, by decide⟩ (fun _ _ => fine _)
  have hsent : sent (settingD P) (fun u => if u = url then some true else if u = url then some false else none)
      (address (settingD P).base "nearest-neighbour".toList ("w", raw)) = .ok demoD := by
    rw [address_ok]
    simp [sent, settingD]
  have hall := C144_values (S := settingD P) (D := Nat) (world_sane P) (fun _ => Iff.rfl) (settingD_wf P) (base_ok P) file () (fun _ => none) managed
    [.serve url (some false), .serve url (some true)] (by intro c x di dO m h; simp at h)
    (by
      rintro f (rfl | ⟨sha, h⟩)
      · exact ⟨_, file_orderly P⟩
      · simp at h)
    conn ⟨[2], [.nan, .fin 1]⟩ _ _ (orca_plain P (some shape)) (orca_plain P (some shape)) (usable P) (usable P) "nn".toList _ .short ⟨by decide, by decide⟩
  rw [hstate] at hall ⊢
  revert ho hall
  generalize (regrid (S := settingD P) conn _ _ _ _ (start (settingD P) file () _ managed)).1 = res
  intro ho hall
  cases ho with
  | unavailable hf => cases Index.first_unique hf (file_first P)
  | unreadable r err hf hw =>
    cases Index.first_unique hf (file_first P)
    rw [hsent] at hw
    cases hw
  | unfitting r z sh hf hw hs hn =>
    cases Index.first_unique hf (file_first P)
    rw [hsent] at hw
    cases hw
    cases shape_unique hs raw_shape
    exact absurd hn (by decide)
  | values r z sh y hf hw hs hx hz h1 h2 h3 =>
    cases Index.first_unique hf (file_first P)
    rw [hsent] at hw
    cases hw
    cases shape_unique hs raw_shape
    obtain ⟨v, e1, p1⟩ := h3 [0, 0] (.cons (by decide) (.cons (by decide) .nil))
    obtain ⟨f, es, r, b, z, sh, a1, a2, a3, -, a5, a6, -, -, -, a10, -⟩ := hall y _ rfl
    exact ⟨y, rfl, by rw [e1, p1.missing 0 ⟨0, by decide, rfl⟩ rfl], f, es, r, b, z, sh, a1, a2, a3, a5, a6, a10⟩

end Demo

end Verif.Remote
