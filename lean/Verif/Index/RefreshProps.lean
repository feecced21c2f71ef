import Verif.Index.Props2

/-! # C43: a forced reload counts as the check of the remote inventory -/

namespace Verif.Index
open Verif.GridSpec
variable {E : Env}

theorem getIndex_force (s : Db E) (h : Fine s) (c : IndexFile × Option E.Sha) (hc : s.w.cached = some c) :
    getIndex .force s = (.ok .cache, downloaded (compared s)) := by
  unfold getIndex
  rw [if_pos h.managed, hc]
  simp only [forceOf, remoteSha, if_pos h.shaUp]
  rw [createCached_fine _ (by exact h.indexUp)]
  simp only [Option.isSome_none, Bool.false_eq_true, if_false]
  rfl

/-- C43: a forced reload of a cached inventory fetches the checksum and the index, uses what is published, and nothing is fetched for the rest of
the session, whatever is asked for. -/
theorem C43_refreshed (s : Db E) (h : Fine s) (c : IndexFile × Option E.Sha) (hc : s.w.cached = some c) (ix : Index)
    (hl : load E.P s.w.remote = .ok ix) (ops : List (Op E)) (hr : ∀ o ∈ ops, o ≠ .refresh) :
    (runOps (.refresh :: ops) s).w.log = s.w.log ++ [.sha, .index] ∧ (runOps (.refresh :: ops) s).index = some ix := by
  have hs : step .refresh s = { downloaded (compared s) with path := some .cache, index := some ix } := by
    simp only [step, reload, getIndex_force s h c hc]
    rw [loadIndex_there _ .cache s.w.remote rfl rfl, hl]
  have hrun : runOps (.refresh :: ops) s = runOps ops (step .refresh s) := rfl
  rw [hrun]
  obtain ⟨h1, h2⟩ := C43_rest_of_session ops (step .refresh s) (by rw [hs]; rfl) (by rw [hs]; rfl) hr
  rw [h1, h2, hs]
  refine ⟨?_, rfl⟩
  show (s.w.log ++ [Access.sha]) ++ [Access.index] = _
  simp

/-- With an empty inventory in the cache: the new one is used, and asking for what it has not fetches nothing. -/
example (P : Py) (order : List String) (r : Req) :
    (runOps [.refresh, .lookup r, .publish emptyFile (0 : Nat), .lookup r] (stale P order true true)).w.log = [.sha, .index] ∧
    (runOps [.refresh, .lookup r, .publish emptyFile (0 : Nat), .lookup r] (stale P order true true)).index = some twoIndex :=
  C43_refreshed (stale P order true true) (stale_fine P order).2.2 _ rfl twoIndex (two_load P) _ (by simp)

/-! ### C44: temporary files -/

/-- Names of temporary files are not used twice. -/
def TmpFresh (s : Db E) : Prop := ∀ n, s.w.nextTmp ≤ n → s.w.tmp n = none

/-- The temporary files of `s` are there in `t` with their content. -/
def TmpKept (s t : Db E) : Prop := TmpFresh t ∧ ∀ n f, s.w.tmp n = some f → t.w.tmp n = some f

theorem TmpKept.refl {s : Db E} (h : TmpFresh s) : TmpKept s s := ⟨h, fun _ _ h => h⟩
theorem TmpKept.trans {s t u : Db E} (h : TmpKept s t) (h' : TmpKept t u) : TmpKept s u := ⟨h'.1, fun n f hf => h'.2 n f (h.2 n f hf)⟩

theorem TmpKept.of_eq {s t u : Db E} (h : TmpKept s t) (h1 : u.w.tmp = t.w.tmp) (h2 : u.w.nextTmp = t.w.nextTmp) : TmpKept s u :=
  ⟨fun n hn => by rw [h1]; exact h.1 n (by rw [← h2]; exact hn), fun n f hf => by rw [h1]; exact h.2 n f hf⟩

theorem createCached_tmp (s : Db E) (h : TmpFresh s) : TmpKept s (createCached s).2 := by
  unfold createCached fetchIndex
  cases s.w.cached with
  | some c => exact .refl h
  | none =>
    by_cases hu : s.w.indexUp = true
    · simp only [hu, if_true]; exact (TmpKept.refl h).of_eq rfl rfl
    · simp only [hu, if_false]; exact (TmpKept.refl h).of_eq rfl rfl

theorem remoteSha_tmp (s : Db E) (h : TmpFresh s) : TmpKept s (remoteSha s).2 := by
  unfold remoteSha
  by_cases hu : s.w.shaUp = true
  · simp only [hu, if_true]; exact (TmpKept.refl h).of_eq rfl rfl
  · simp only [hu, if_false]; exact (TmpKept.refl h).of_eq rfl rfl

theorem forceOf_tmp (f : Force) (o : Option E.Sha) (s : Db E) (h : TmpFresh s) : TmpKept s (forceOf f o s).2 := by
  have hs := remoteSha_tmp s h
  unfold forceOf
  cases f with
  | no => exact .refl h
  | compare =>
    cases o with
    | none => exact .refl h
    | some l =>
      simp only
      generalize remoteSha s = y at hs
      obtain ⟨y, t⟩ := y
      cases y with
      | error => exact hs
      | ok r => exact hs.of_eq rfl rfl
  | force =>
    simp only
    generalize remoteSha s = y at hs
    obtain ⟨y, t⟩ := y
    cases y with
    | error => exact hs
    | ok r => exact hs.of_eq rfl rfl

theorem getIndex_tmp (f : Force) (s : Db E) (h : TmpFresh s) : TmpKept s (getIndex f s).2 := by
  unfold getIndex
  by_cases hm : s.w.managed = true
  · rw [if_pos hm]
    cases s.w.cached with
    | none => exact createCached_tmp s h
    | some c =>
      obtain ⟨c, owner⟩ := c
      have hs := forceOf_tmp f owner s h
      simp only
      generalize forceOf f owner s = y at hs
      obtain ⟨y, t⟩ := y
      cases y with
      | error => exact hs
      | ok b =>
        cases b with
        | true =>
          have hd : TmpKept s ({ t with w := { t.w with cached := none } } : Db E) := hs.of_eq rfl rfl
          exact hd.trans (createCached_tmp _ hd.1)
        | false => exact hs.trans (createCached_tmp _ hs.1)
  · rw [if_neg hm]
    unfold fetchIndex
    by_cases hu : s.w.indexUp = true
    · simp only [hu, if_true]
      constructor
      · intro n hn
        have hn : s.w.nextTmp + 1 ≤ n := hn
        show (if n = s.w.nextTmp then _ else s.w.tmp n) = none
        rw [if_neg (by omega)]
        exact h n (by omega)
      · intro n f hf
        show (if n = s.w.nextTmp then _ else s.w.tmp n) = some f
        rw [if_neg]
        · exact hf
        · rintro rfl
          rw [h _ (le_refl _)] at hf
          cases hf
    · simp only [hu, if_false]; exact (TmpKept.refl h).of_eq rfl rfl

theorem reload_tmp (f : Force) (s : Db E) (h : TmpFresh s) : TmpKept s (reload f s).2 := by
  have hs := getIndex_tmp f s h
  unfold reload
  generalize getIndex f s = y at hs
  obtain ⟨y, t⟩ := y
  cases y with
  | error => exact hs
  | ok => exact hs.of_eq rfl rfl

theorem indexPath_tmp (s : Db E) (h : TmpFresh s) : TmpKept s (indexPath s).2 := by
  have hs := getIndex_tmp .no s h
  unfold indexPath
  cases s.path.bind (fun p => (s.w.read p).map (fun _ => p)) with
  | some p => exact .refl h
  | none =>
    simp only
    generalize getIndex .no s = y at hs
    obtain ⟨y, t⟩ := y
    cases y with
    | error => exact hs
    | ok => exact hs.of_eq rfl rfl

theorem loadIndex_tmp (s : Db E) (h : TmpFresh s) : TmpKept s (loadIndex s).2 := by
  have hs : TmpKept s (indexPath { s with index := some [] }).2 := indexPath_tmp { s with index := some [] } h
  unfold loadIndex
  generalize indexPath { s with index := some [] } = y at hs
  obtain ⟨y, t⟩ := y
  cases y with
  | error => exact hs
  | ok p =>
    simp only
    cases t.w.read p with
    | none => exact hs
    | some f =>
      simp only
      cases load E.P f with
      | error => exact hs
      | ok => exact hs.of_eq rfl rfl

theorem findEntry_tmp (r : Req) (s : Db E) (h : TmpFresh s) : TmpKept s (findEntry r s).2 := by
  have he : TmpKept s (ensureIndex s).2 := by
    unfold ensureIndex
    cases s.index with
    | some => exact .refl h
    | none => exact loadIndex_tmp s h
  unfold findEntry
  generalize ensureIndex s = y at he
  obtain ⟨y, t⟩ := y
  cases y with
  | some => exact he
  | none =>
    simp only
    cases lookIn r t with
    | error => exact he
    | ok v =>
      cases v with
      | some => exact he
      | none =>
        simp only
        by_cases hc : t.checked = true
        · rw [if_pos hc]; exact he
        · rw [if_neg hc]
          have hr := he.trans (reload_tmp .compare t he.1)
          generalize reload .compare t = z at hr
          obtain ⟨z, u⟩ := z
          cases z with
          | some => exact hr
          | none =>
            simp only
            have hl := hr.trans (loadIndex_tmp u hr.1)
            generalize loadIndex u = v at hl
            obtain ⟨v, u'⟩ := v
            cases v <;> exact hl

/-- C44: without a cache each download gets a file of its own; the files of earlier downloads stay as they are, whatever happens in the session. -/
theorem C44_own_files (ops : List (Op E)) (s : Db E) (h : TmpFresh s) (n : Nat) (f : IndexFile) (hf : s.w.tmp n = some f) :
    (runOps ops s).w.tmp n = some f := by
  have key : ∀ (ops : List (Op E)) (s : Db E), TmpFresh s → TmpKept s (ops.foldl (fun s o => step o s) s) := by
    intro ops
    induction ops with
    | nil => intro s h; exact .refl h
    | cons o ops ih =>
      intro s h
      rw [List.foldl_cons]
      have hs : TmpKept s (step o s) := by
        cases o with
        | lookup r => exact findEntry_tmp r s h
        | refresh =>
          have hr := reload_tmp .force s h
          simp only [step]
          generalize reload .force s = y at hr
          obtain ⟨y, t⟩ := y
          cases y with
          | some => exact hr
          | none => exact hr.trans (loadIndex_tmp t hr.1)
        | publish => exact (TmpKept.refl h).of_eq rfl rfl
        | network => exact (TmpKept.refl h).of_eq rfl rfl
        | evict => exact (TmpKept.refl h).of_eq rfl rfl
        | policy => exact (TmpKept.refl h).of_eq rfl rfl
      exact hs.trans (ih _ hs.1)
  exact (key ops s h).2 n f hf

/-- The file of a download is still there after two further ones. -/
example (P : Py) (order : List String) (g : IndexFile) :
    (runOps [.publish g (0 : Nat), .refresh, .refresh] (step .refresh (step (.policy false) (stale P order true true)))).w.tmp 0 = some twoFile := by
  refine C44_own_files _ _ ?_ 0 twoFile rfl
  have : TmpFresh (step (.policy false) (stale P order true true)) := fun _ _ => rfl
  have hr := reload_tmp .force _ this
  exact (hr.trans (loadIndex_tmp _ hr.1)).1

/-! ### C45: what a lookup in a local inventory gives -/

/-- The index in memory has no answer. -/
def NotHeld (P : Py) (order : List String) (r : Req) (ix : Option Index) : Prop :=
  ix = none ∨ ∃ i, ix = some i ∧ find P order i r.input r.output (methodAlias r.method) = .ok none

/-- What a lookup gives, from the directory's index file and the index in memory. -/
inductive LocalAnswer (P : Py) (order : List String) (r : Req) (file : Option IndexFile) (ix : Option Index) : Except SErr (Option Entry) → Prop
  | held (i : Index) (e : Entry) (hi : ix = some i) (h : find P order i r.input r.output (methodAlias r.method) = .ok (some e)) :
      LocalAnswer P order r file ix (.ok (some e))
  | refused (i : Index) (x : GridSpec.Err) (hi : ix = some i) (h : find P order i r.input r.output (methodAlias r.method) = .error x) :
      LocalAnswer P order r file ix (.error (.spec x))
  | absent (hi : NotHeld P order r ix) (hf : file = none) : LocalAnswer P order r file ix (.error .missing)
  | spoilt (f : IndexFile) (x : GridSpec.Err) (hi : NotHeld P order r ix) (hf : file = some f) (hl : load P f = .error x) :
      LocalAnswer P order r file ix (.error (.spec x))
  | read (f : IndexFile) (i : Index) (e : Option Entry) (hi : NotHeld P order r ix) (hf : file = some f) (hl : load P f = .ok i)
      (h : find P order i r.input r.output (methodAlias r.method) = .ok e) : LocalAnswer P order r file ix (.ok e)
  | readRefused (f : IndexFile) (i : Index) (x : GridSpec.Err) (hi : NotHeld P order r ix) (hf : file = some f) (hl : load P f = .ok i)
      (h : find P order i r.input r.output (methodAlias r.method) = .error x) : LocalAnswer P order r file ix (.error (.spec x))

/-- Reading the index file and looking in it. -/
def readAnswer (P : Py) (order : List String) (r : Req) (file : Option IndexFile) : Except SErr (Option Entry) :=
  match file with
  | none => .error .missing
  | some f =>
    match load P f with
    | .error e => .error (.spec e)
    | .ok i => localLook P order r ⟨file, some i⟩

theorem localLoad_read (P : Py) (order : List String) (r : Req) (file : Option IndexFile) (ix : Option Index) :
    (match localLoad P ⟨file, ix⟩ with
      | (some e, s) => ((.error e : Except SErr (Option Entry)), s)
      | (none, s) => (localLook P order r s, s)).1 = readAnswer P order r file := by
  unfold localLoad readAnswer
  cases file with
  | none => rfl
  | some f => simp only; cases load P f <;> rfl

theorem readAnswer_spec (P : Py) (order : List String) (r : Req) (file : Option IndexFile) (ix : Option Index) (hn : NotHeld P order r ix) :
    LocalAnswer P order r file ix (readAnswer P order r file) := by
  unfold readAnswer
  cases file with
  | none => exact .absent hn rfl
  | some f =>
    simp only
    cases hl : load P f with
    | error x => exact .spoilt f x hn rfl hl
    | ok i =>
      simp only [localLook, Option.getD_some]
      cases hfind : find P order i r.input r.output (methodAlias r.method) with
      | error x => exact .readRefused f i x hn rfl hl hfind
      | ok e => exact .read f i e hn rfl hl hfind

/-- C45: a lookup in a local inventory gives what the index in memory has, otherwise what the index file has as it is now; errors are those of the
file or of the descriptions. -/
theorem C45_answer (P : Py) (order : List String) (r : Req) (s : LocalDb) : LocalAnswer P order r s.file s.index (localFind P order r s).1 := by
  obtain ⟨file, ix⟩ := s
  have hload := localLoad_read P order r file
  have hans := readAnswer_spec P order r file ix
  unfold localFind localEnsure
  cases hix : ix with
  | some i =>
    simp only
    cases hfind : find P order i r.input r.output (methodAlias r.method) with
    | error x =>
      have : localLook P order r ⟨file, some i⟩ = .error (.spec x) := by unfold localLook; simp [hfind]
      rw [this]
      exact .refused i x rfl hfind
    | ok o =>
      have hl : localLook P order r ⟨file, some i⟩ = .ok o := by unfold localLook; simp [hfind]
      rw [hl]
      cases o with
      | some e => exact .held i e rfl hfind
      | none =>
        have hn : NotHeld P order r ix := .inr ⟨i, hix, hfind⟩
        simp only
        have h2 := hans hn
        rw [hix] at h2
        have h1 := hload (some i)
        generalize localLoad P ⟨file, some i⟩ = y at h1 ⊢
        obtain ⟨y, t⟩ := y
        cases y with
        | some e => exact h1 ▸ h2
        | none => exact h1 ▸ h2
  | none =>
    have hn : NotHeld P order r ix := .inl hix
    have h2 := hans hn
    rw [hix] at h2
    simp only
    cases file with
    | none => exact .absent (.inl rfl) rfl
    | some f =>
      simp only [readAnswer] at h2
      simp only [localLoad]
      cases hl : load P f with
      | error x => exact .spoilt f x (.inl rfl) rfl hl
      | ok i =>
        rw [hl] at h2
        simp only at h2 ⊢
        cases hv : localLook P order r ⟨some f, some i⟩ with
        | error => rw [hv] at h2; exact h2
        | ok o =>
          rw [hv] at h2
          cases o with
          | some e => exact h2
          | none => simp only [hl, hv]; exact h2

/-- An index file of another version: ValueError, each time. -/
example (P : Py) (order : List String) (r : Req) : (localFind P order r ⟨some ⟨some (.int 2), some []⟩, none⟩).1 = .error (.spec .value) := by
  have h := C45_answer P order r ⟨some ⟨some (.int 2), some []⟩, none⟩
  generalize (localFind P order r ⟨some ⟨some (.int 2), some []⟩, none⟩).1 = v at h
  have hl : load P ⟨some (.int 2), some []⟩ = .error .value := rfl
  cases h with
  | held i e hi => cases hi
  | refused i x hi => cases hi
  | absent hi hf => cases hf
  | spoilt f x hi hf h => cases hf; rw [hl] at h; cases h; rfl
  | read f i e hi hf h => cases hf; rw [hl] at h; cases h
  | readRefused f i x hi hf h => cases hf; rw [hl] at h; cases h

end Verif.Index
