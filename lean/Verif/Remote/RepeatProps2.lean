import Verif.Remote.RepeatProps

/-! # C161: how many times the weights are downloaded with the disk cache off -/

namespace Verif.Remote
open Verif.GridSpec Verif.Regrid Verif.DiskCache.Download

section
variable {α B D : Type} {S : Setting α B}

/-- The answer to the call is held in memory when it is made. -/
def HeldFor (s : St S D) (u : Use α B D) : Prop :=
  ∃ gi go, fromDict S.E.P u.inGrid = .ok gi ∧ fromDict S.E.P u.outGrid = .ok go ∧ Held s gi go u.method

open Classical in
/-- How many of the calls ask for something that is not in memory when they are made. -/
noncomputable def missed [Zero α] [Add α] [Mul α] : St S D → List (Use α B D) → Nat
  | _, [] => 0
  | s, u :: us => (if HeldFor s u then 0 else 1) + missed (regrid u.conn u.x u.inGrid u.outGrid u.method s).2 us

/-- What is returned without being held was looked up and loaded. -/
theorem get_missed {Q K W T : Type} [LinearOrder K] (key : Q → K) (sizeFn : W → Nat) (src : MemCache.Source Q W T) (q : Q) (s : MemCache.Cache K W T)
    (hn : ¬(s.policy.hasCache = true ∧ ∃ it ∈ s.items, it.key = key q)) (w : W) (sh : Option T)
    (h : (MemCache.get key sizeFn src q s).1.res = .ok (some w, sh)) :
    ∃ e, src.findEntry q = .ok e ∧ src.createFromEntry e = .ok (some w, sh) ∧ (MemCache.get key sizeFn src q s).1.calls = [.find q, .load e] := by
  have hcreate : src.create q = .ok (some w, sh) → ∃ e, src.findEntry q = .ok e ∧ src.createFromEntry e = .ok (some w, sh) ∧
      src.createCalls q = [.find q, .load e] := by
    unfold MemCache.Source.create MemCache.Source.createCalls
    cases src.findEntry q with
    | error e => intro h; cases h
    | ok e => intro h; exact ⟨e, rfl, h, rfl⟩
  have hpre : (MemCache.createWithPreCheck src q s).1.res = .ok (some w, sh) → ∃ e, src.findEntry q = .ok e ∧
      src.createFromEntry e = .ok (some w, sh) ∧ (MemCache.createWithPreCheck src q s).1.calls = [.find q, .load e] := by
    unfold MemCache.createWithPreCheck
    cases src.findEntry q with
    | error e => intro h; cases h
    | ok oe =>
      cases oe with
      | none => intro h; exact ⟨none, rfl, h, rfl⟩
      | some e =>
        simp only
        split
        · intro h; cases h
        · split
          · intro h; cases h
          · split
            · intro h; cases h
            · intro h; exact ⟨some e, rfl, h, rfl⟩
  unfold MemCache.get at h ⊢
  by_cases hp : s.policy.hasCache = true
  · simp only [hp, if_true] at h ⊢
    cases hf : s.items.find? (fun it => decide (it.key = key q)) with
    | some it =>
      exact absurd ⟨hp, it, List.mem_of_find?_eq_some hf, by simpa using List.find?_some hf⟩ hn
    | none =>
      rw [hf] at h
      simp only at h ⊢
      obtain ⟨r, hr⟩ : ∃ r : MemCache.Out Q W T × MemCache.Cache K W T, r = (if s.policy.hasLimit = true then MemCache.createWithPreCheck src q s
        else (⟨src.create q, src.createCalls q⟩, s)) := ⟨_, rfl⟩
      have hrr : r.1.res = .ok (some w, sh) → ∃ e, src.findEntry q = .ok e ∧ src.createFromEntry e = .ok (some w, sh) ∧
          r.1.calls = [.find q, .load e] := by
        rw [hr]
        split
        · exact hpre
        · exact hcreate
      rw [← hr] at h ⊢
      obtain ⟨⟨res, cs⟩, s1⟩ := r
      cases res with
      | error e => cases h
      | ok p =>
        obtain ⟨ow, sh'⟩ := p
        cases ow with
        | none => cases h
        | some w' =>
          simp only at h ⊢
          split at h
          · cases h
          · simp only at h
            exact hrr h
  · simp only [hp] at h ⊢
    exact hcreate h

theorem find_missed (c : Conn B D) (di dO : Dict) (m : List Char) (s : St S D) (hd : s.db.w.managed = false)
    (hn : ∀ gi go, fromDict S.E.P di = .ok gi → fromDict S.E.P dO = .ok go → ¬Held s gi go m) (p : Csr α × List Nat)
    (h : (find c di dO m s).1 = .ok (some p)) : downloads (find c di dO m s).2 = downloads s + 1 := by
  unfold find at h ⊢
  cases hi : fromDict S.E.P di with
  | error e => rw [hi] at h; cases h
  | ok gi =>
    cases ho : fromDict S.E.P dO with
    | error e => rw [hi, ho] at h; cases h
    | ok go =>
      rw [hi, ho] at h
      simp only at h ⊢
      have hg := get_missed S.world.key S.sizeFn (source c s ⟨gi, go, m⟩) ⟨gi, go, m⟩ s.mem (hn gi go hi ho)
      have hman := findEntry_managed (reqOf ⟨gi, go, m⟩) s.db
      rw [hd] at hman
      revert h hg
      generalize MemCache.get S.world.key S.sizeFn (source c s ⟨gi, go, m⟩) ⟨gi, go, m⟩ s.mem = y
      obtain ⟨⟨res, cs⟩, t⟩ := y
      intro h hg
      cases res with
      | error e => cases h
      | ok q =>
        obtain ⟨ow, sh⟩ := q
        cases ow with
        | none => cases sh <;> simp [ofPair] at h
        | some w =>
          obtain ⟨e, h1, h2, h3⟩ := hg w sh rfl
          simp only at h3
          subst h3
          simp only [downloads, afterCalls]
          have h2 : (loadOut c (Index.findEntry (reqOf ⟨gi, go, m⟩) s.db).2 s e).1 = .ok (some w, sh) := h2
          generalize (Index.findEntry (reqOf ⟨gi, go, m⟩) s.db).2 = db at h2 hman
          cases e with
          | none => simp [loadOut] at h2
          | some me =>
            unfold loadOut at h2 ⊢
            cases hat : entryAt db me with
            | none => simp [hat] at h2
            | some e' =>
              simp only [hat, hman] at h2 ⊢
              have hcc := create_counts (S := S) c s.server e' s.disk
              cases hcf : createFrom S c false s.server e' s.disk with
              | mk r' disk' =>
                rw [hcf] at h2 hcc
                cases r' with
                | error x => cases h2
                | ok q => exact hcc q rfl

theorem find_managed (c : Conn B D) (di dO : Dict) (m : List Char) (s : St S D) : (find c di dO m s).2.db.w.managed = s.db.w.managed := by
  unfold find
  cases fromDict S.E.P di with
  | error e => rfl
  | ok gi =>
    cases fromDict S.E.P dO with
    | error e => rfl
    | ok go =>
      simp only
      have hman := findEntry_managed (reqOf ⟨gi, go, m⟩) s.db
      generalize MemCache.get S.world.key S.sizeFn (source c s ⟨gi, go, m⟩) ⟨gi, go, m⟩ s.mem = y
      obtain ⟨⟨res, cs⟩, t⟩ := y
      have : (afterCalls c s ⟨gi, go, m⟩ cs).db.w.managed = s.db.w.managed := by
        unfold afterCalls
        split
        · rfl
        · exact hman
        · exact hman
        · rfl
      cases res <;> exact this

end

section
variable {α B D : Type} [CommRing α] {S : Setting α B}

/-- C161 (exact): with the disk cache off, calls that return download as many files as there are calls whose answer is not in memory when they
are made – whatever the policy, limit and content of the in-memory cache, and whatever the calls ask for. -/
theorem C161_exact (us : List (Use α B D)) (s : St S D) (hd : s.db.w.managed = false) (hr : AllReturn s us) :
    downloads (useAll s us) = downloads s + missed s us := by
  induction us generalizing s with
  | nil => rfl
  | cons u us ih =>
    obtain ⟨⟨r, h1⟩, h2⟩ := hr
    obtain ⟨a1, a2⟩ := regrid_eq u.conn u.x u.inGrid u.outGrid u.method s
    have hd' : (regrid u.conn u.x u.inGrid u.outGrid u.method s).2.db.w.managed = false := by
      rw [a1, find_managed, hd]
    unfold missed useAll
    rw [ih _ hd' h2]
    by_cases hh : HeldFor s u
    · rw [if_pos hh]
      obtain ⟨gi, go, hi, ho, hh⟩ := hh
      have := (find_held u.conn u.inGrid u.outGrid u.method s gi go hi ho hh).1
      have he : downloads (regrid u.conn u.x u.inGrid u.outGrid u.method s).2 = downloads s := by
        rw [a1]; unfold downloads; rw [this]
      omega
    · rw [if_neg hh]
      have he : downloads (regrid u.conn u.x u.inGrid u.outGrid u.method s).2 = downloads s + 1 := by
        unfold Use.result at h1
        rw [a2] at h1
        rw [a1]
        cases hf : (find u.conn u.inGrid u.outGrid u.method s).1 with
        | error e => rw [hf] at h1; cases h1
        | ok p =>
          cases p with
          | none => rw [hf] at h1; cases h1
          | some p =>
            exact find_missed u.conn u.inGrid u.outGrid u.method s hd (fun gi go hi ho h => hh ⟨gi, go, hi, ho, h⟩) p hf
      omega

end

section
variable {α B D : Type} {S : Setting α B}

theorem ask_counts (d : Disk B D) (k : Contact) (hk : k ≠ .download) : (d.ask k).contacts.count .download = d.contacts.count .download := by
  simp [Disk.ask, hk]

theorem fetch_at_most (dl : Downloader B D) (l : Loc) (d : Disk B D) : (fetch dl l d).2.contacts.count .download = d.contacts.count .download + 1 := by
  unfold fetch
  cases dl.download <;> simp [Disk.ask]

theorem decide_counts (cfg : String → Except Config.Err Config.V) (P : Config.Py) (dl : Downloader B D) (u : Bool) (old : B) (data : Option D) (d : Disk B D) (f : Force) :
    (decide' cfg P dl u old data d f).2.contacts.count .download = d.contacts.count .download := by
  have hk := ask_counts d .outOfDate (by decide)
  unfold decide'
  cases f with
  | value b => rfl
  | callable r => rfl
  | default =>
    simp only
    unfold outOfDate
    split
    · rfl
    · split
      · rfl
      · split
        · exact hk
        · exact hk
        · split <;> exact hk

theorem cacheFile_at_most (cfg : String → Except Config.Err Config.V) (P : Config.Py) (dl : Downloader B D) (u : Bool) (f : Force) (l : Loc) (d : Disk B D) :
    (cacheFileAt cfg P dl u f l d).2.contacts.count .download ≤ d.contacts.count .download + 1 := by
  unfold cacheFileAt
  split
  · exact (fetch_at_most dl l d).le
  · rename_i old _
    have h := decide_counts cfg P dl u old (d.data l) d f
    revert h
    generalize decide' cfg P dl u old (d.data l) d f = y
    obtain ⟨r, d'⟩ := y
    intro h
    simp only at h
    cases r with
    | error e => simp only; omega
    | ok b =>
      cases b with
      | true =>
        have := fetch_at_most dl l (drop l d')
        have h2 : (drop l d').contacts = d'.contacts := rfl
        simp only
        rw [this, h2]
        omega
      | false => simp only; omega

theorem download_at_most (cfg : String → Except Config.Err Config.V) (P : Config.Py) (managed : Bool) (dl : Downloader B D) (c : Call) (d : Disk B D) :
    (downloadAndCache cfg P managed dl c d).2.contacts.count .download ≤ d.contacts.count .download + 1 := by
  unfold downloadAndCache
  split
  · simp only; omega
  · obtain ⟨s1, e1⟩ : ∃ s1, s1 = (if dl.asksExtension then d.ask .extension else d) := ⟨_, rfl⟩
    have hc : s1.contacts.count .download = d.contacts.count .download := by
      rw [e1]; split
      · exact ask_counts d _ (by decide)
      · rfl
    simp only
    rw [← e1, ← hc]
    split
    · simp only; omega
    · split
      · simp only; omega
      · rename_i ext _ _
        have hr : ∀ y : Except DErr Loc × Disk B D, (returned y).2 = y.2 := by
          rintro ⟨r, d'⟩
          cases r <;> rfl
        rw [hr]
        split
        · exact cacheFile_at_most ..
        · exact (fetch_at_most ..).le

theorem create_at_most (c : Conn B D) (managed : Bool) (server : String → Option B) (e : Index.Entry) (d : Disk B D) :
    (createFrom S c managed server e d).2.contacts.count .download ≤ d.contacts.count .download + 1 := by
  have hl : (loadMatrix S c managed server e d).2.contacts.count .download ≤ d.contacts.count .download + 1 := by
    unfold loadMatrix
    split
    · simp only; omega
    · rename_i path _
      have h := download_at_most c.cfg S.CP managed (c.downloader server (urlOf S path)) (weightsCall S path) d
      split <;> rename_i heq <;> rw [heq] at h <;> exact h
  unfold createFrom
  split <;> rename_i heq <;> rw [heq] at hl
  · exact hl
  · split <;> exact hl

theorem load_at_most (c : Conn B D) (db : Index.Db S.E) (s : St S D) (m : Option MemCache.Entry) :
    (loadOut c db s m).2.contacts.count .download ≤ s.disk.contacts.count .download + 1 := by
  unfold loadOut
  split
  · simp only; omega
  · split
    · simp only; omega
    · rename_i e _
      have h := create_at_most (S := S) c db.w.managed s.server e s.disk
      split <;> rename_i heq <;> rw [heq] at h <;> exact h

theorem find_at_most (c : Conn B D) (di dO : Dict) (m : List Char) (s : St S D) : downloads (find c di dO m s).2 ≤ downloads s + 1 := by
  have ha : ∀ q cs, downloads (afterCalls c s q cs) ≤ downloads s + 1 := by
    intro q cs
    unfold afterCalls downloads
    split
    · omega
    · simp only; omega
    · exact load_at_most ..
    · omega
  unfold find
  cases fromDict S.E.P di with
  | error e => simp only; omega
  | ok gi =>
    cases fromDict S.E.P dO with
    | error e => simp only; omega
    | ok go =>
      simp only
      generalize MemCache.get S.world.key S.sizeFn (source c s ⟨gi, go, m⟩) ⟨gi, go, m⟩ s.mem = y
      obtain ⟨⟨res, cs⟩, t⟩ := y
      cases res <;> exact ha _ _

end

section
variable {α B D : Type} [CommRing α] {S : Setting α B}

/-- C161 (bound): whatever the settings of both caches, and whether the calls return or raise, no more files are downloaded than there are calls
whose answer is not in memory when they are made. -/
theorem C161_at_most (us : List (Use α B D)) (s : St S D) : downloads (useAll s us) ≤ downloads s + missed s us := by
  induction us generalizing s with
  | nil => exact Nat.le_refl _
  | cons u us ih =>
    have a1 := (regrid_eq u.conn u.x u.inGrid u.outGrid u.method s).1
    unfold missed useAll
    refine (ih _).trans ?_
    by_cases hh : HeldFor s u
    · rw [if_pos hh]
      obtain ⟨gi, go, hi, ho, hh⟩ := hh
      have := (find_held u.conn u.inGrid u.outGrid u.method s gi go hi ho hh).1
      have he : downloads (regrid u.conn u.x u.inGrid u.outGrid u.method s).2 = downloads s := by
        rw [a1]; unfold downloads; rw [this]
      omega
    · rw [if_neg hh]
      have := find_at_most u.conn u.inGrid u.outGrid u.method s
      rw [← a1] at this
      omega

end

namespace Demo
open Verif.Regrid.Demo
open Verif.Index (orca orcaSpec orca_fromDict)

/-- The first of two calls is not in memory, the second one is: one download. -/
example (P : Py) : missed (start (setting P) indexFile () (files true) false) [call conn, call down] = 1 := by
  have h := C161_exact _ (start (setting P) indexFile () (files true) false) rfl (C161_refuted P).1
  rw [(C161_refuted P).2] at h
  have h0 : downloads (start (setting P) indexFile () (files true) false : St (setting P) Nat) = 0 := rfl
  omega

/-- A call whose answer is held does not count, and downloads nothing. -/
example (P : Py) (z : Csr ℚ) (h : AllReturn (full P z) [call down]) : downloads (useAll (full P z) [call down]) = 0 := by
  rw [C161_exact _ (full P z) rfl h]
  have hh : HeldFor (full P z) (call down) := ⟨_, _, orca_fromDict P _, orca_fromDict P _, rfl, _, List.mem_singleton.2 rfl, rfl⟩
  unfold missed
  rw [if_pos hh]
  rfl

/-- The disk cache on, the answer in memory, no network: nothing is downloaded. -/
example (P : Py) (z : Csr ℚ) : downloads (useAll ({ full P z with db := { (full P z).db with w := { (full P z).db.w with managed := true } } } : St (setting P) Nat) [call down]) = 0 := by
  have hh : HeldFor ({ full P z with db := { (full P z).db with w := { (full P z).db.w with managed := true } } } : St (setting P) Nat) (call down) :=
    ⟨_, _, orca_fromDict P _, orca_fromDict P _, rfl, _, List.mem_singleton.2 rfl, rfl⟩
  have h := C161_at_most [call down] ({ full P z with db := { (full P z).db with w := { (full P z).db.w with managed := true } } } : St (setting P) Nat)
  unfold missed at h
  rw [if_pos hh] at h
  exact Nat.le_zero.1 h

end Demo

end Verif.Remote
