import Verif.DiskCache.Download
import Verif.Config.Props

/-!
# Properties of downloads (C70, C92)
-/

namespace Verif.DiskCache.Download
open Verif.Config

variable {B D : Type}

/-! ## Specification -/

/-- The check for newer versions is switched off: the option is `False`. -/
def CheckOff (cfg : String → Except Err V) : Prop := cfg "check-out-of-date-urls" = .ok (.bool false)

/-- A newer version may be fetched: the option is set or the caller says so. -/
def MayFetch (cfg : String → Except Err V) (P : Py) (c : Call) : Prop :=
  c.updateFlag = true ∨ ∃ y, cfg "download-out-of-date-urls" = .ok y ∧ truthy P y = true

/-- The caller wants the cached copy replaced: it says so, its function says so, or (nothing given) the check is on, the server says that
the copy is out of date, and newer versions may be fetched. -/
def Wanted (cfg : String → Except Err V) (P : Py) (dl : Downloader B D) (c : Call) (old : B) (data : Option D) : Prop :=
  c.force = .value true ∨ c.force = .callable (.ok true) ∨
    (c.force = .default ∧ ¬CheckOff cfg ∧ dl.outOfDate old data = .ok true ∧ MayFetch cfg P c)

/-- Nothing of the cache changed. -/
def Untouched (s s' : Disk B D) : Prop := s'.files = s.files ∧ s'.data = s.data

/-- The place of a download. -/
def Call.loc (c : Call) (ext : String) : Loc := .keyed c.owner c.url c.parts ext

/-! ## Proofs -/

/-- `download_and_cache` once the extension is known. -/
theorem downloadAndCache_managed {cfg : String → Except Err V} {P : Py} {dl : Downloader B D} {c : Call} {s : Disk B D} {ext : String} {x : V}
    (ht : cfg "url-download-timeout" = .ok x) (he : dl.extension = .ok ext) (hl : dl.localPath = none) (ha : dl.asksExtension = false) :
    downloadAndCache cfg P true dl c s = returned (cacheFileAt cfg P dl c.updateFlag c.force (c.loc ext) s) := by
  unfold downloadAndCache
  simp only [ht, he, hl, ha]
  rfl

theorem decide_wanted {cfg : String → Except Err V} {P : Py} {dl : Downloader B D} {c : Call} {old : B} {data : Option D} {s : Disk B D}
    (h : (decide' cfg P dl c.updateFlag old data s c.force).1 = .ok true) : Wanted cfg P dl c old data := by
  cases hf : c.force with
  | value b => rw [hf] at h; cases h; exact .inl hf
  | callable r => rw [hf] at h; exact .inr (.inl (by rw [hf, show r = .ok true from h]))
  | default =>
    rw [hf] at h
    refine .inr (.inr ⟨hf, ?_⟩)
    simp only [decide', outOfDate] at h
    unfold CheckOff MayFetch
    cases hc : cfg "check-out-of-date-urls" with
    | error e => rw [hc] at h; cases h
    | ok y =>
      rw [hc] at h
      simp only at h
      by_cases hy : y = .bool false
      · rw [if_pos hy] at h; cases h
      · rw [if_neg hy] at h
        refine ⟨fun e => hy (by cases e; rfl), ?_⟩
        cases ho : dl.outOfDate old data with
        | error e => rw [ho] at h; cases h
        | ok r =>
          cases r with
          | false => rw [ho] at h; cases h
          | true =>
            refine ⟨rfl, ?_⟩
            rw [ho] at h
            simp only at h
            cases hd : cfg "download-out-of-date-urls" with
            | error e => rw [hd] at h; cases h
            | ok z =>
              rw [hd] at h
              have hz : (truthy P z || c.updateFlag) = true := by simpa using h
              rcases Bool.or_eq_true_iff.1 hz with h | h
              · exact .inr ⟨z, rfl, h⟩
              · exact .inl h

theorem decide_files {cfg : String → Except Err V} {P : Py} {dl : Downloader B D} {u : Bool} {old : B} {data : Option D} {s : Disk B D} {f : Force} :
    (decide' cfg P dl u old data s f).2.files = s.files ∧ (decide' cfg P dl u old data s f).2.data = s.data := by
  unfold decide'
  cases f with
  | value b => exact ⟨rfl, rfl⟩
  | callable r => exact ⟨rfl, rfl⟩
  | default =>
    simp only
    unfold outOfDate
    split
    · exact ⟨rfl, rfl⟩
    · split
      · exact ⟨rfl, rfl⟩
      · split
        · exact ⟨rfl, rfl⟩
        · exact ⟨rfl, rfl⟩
        · split <;> exact ⟨rfl, rfl⟩

/-- C70 (part): with the check off, a cached download is used as it is: no request, no change, and its path is returned. Missing: URLs
without extension and local files (`C70_refuted`), and other values that look like off (`C70_zero_refuted`). -/
theorem C70_reused_partial (cfg : String → Except Err V) (P : Py) (dl : Downloader B D) (c : Call) (s : Disk B D) (ext : String) (x : V) (old : B)
    (hcheck : CheckOff cfg) (hforce : c.force = .default) (ht : cfg "url-download-timeout" = .ok x) (he : dl.extension = .ok ext)
    (hl : dl.localPath = none) (ha : dl.asksExtension = false) (hfile : s.files (c.loc ext) = some old) :
    downloadAndCache cfg P true dl c s = (.ok (some (c.loc ext)), s) := by
  rw [downloadAndCache_managed ht he hl ha]
  unfold cacheFileAt
  rw [hfile, hforce]
  unfold CheckOff at hcheck
  simp only [decide', outOfDate, hcheck, if_true, returned]

/-- C70: whatever the configuration, a cached copy is given up only if the caller wants that. -/
theorem C70_replaced_only_if (cfg : String → Except Err V) (P : Py) (managed : Bool) (dl : Downloader B D) (c : Call) (s : Disk B D) (l : Loc) (old : B)
    (hfile : s.files l = some old) (hl : ∀ n, l = .unique n → n < s.next)
    (hch : (downloadAndCache cfg P managed dl c s).2.files l ≠ some old ∨ (downloadAndCache cfg P managed dl c s).2.data l ≠ s.data l) :
    Wanted cfg P dl c old (s.data l) := by
  have asked : ∀ x, (s.ask x).files = s.files ∧ (s.ask x).data = s.data ∧ (s.ask x).next = s.next := fun x => ⟨rfl, rfl, rfl⟩
  unfold downloadAndCache at hch
  cases ht : cfg "url-download-timeout" with
  | error e => rw [ht] at hch; simp only [hfile] at hch; exact absurd hch (by simp)
  | ok x =>
    rw [ht] at hch
    simp only at hch
    obtain ⟨s1, e1⟩ : ∃ s1, s1 = if dl.asksExtension = true then s.ask .extension else s := ⟨_, rfl⟩
    have hs1 : s1.files = s.files ∧ s1.data = s.data ∧ s1.next = s.next := by
      rw [e1]; split
      · exact asked _
      · exact ⟨rfl, rfl, rfl⟩
    rw [← e1] at hch
    have same : ∀ s2 : Disk B D, s2.files l = s1.files l → s2.data l = s1.data l → ¬(s2.files l ≠ some old ∨ s2.data l ≠ s.data l) := by
      intro s2 h1 h2 h
      rcases h with h | h
      · exact h (by rw [h1, hs1.1, hfile])
      · exact h (by rw [h2, hs1.2.1])
    cases he : dl.extension with
    | error e => rw [he] at hch; exact absurd hch (same s1 rfl rfl)
    | ok ext =>
      rw [he] at hch
      simp only at hch
      cases hp : dl.localPath with
      | some p => rw [hp] at hch; exact absurd hch (same s1 rfl rfl)
      | none =>
        rw [hp] at hch
        simp only at hch
        have fetched : ∀ (l' : Loc) (s2 : Disk B D), l' ≠ l → (fetch dl l' s2).2.files l = s2.files l ∧ (fetch dl l' s2).2.data l = s2.data l := by
          intro l' s2 hne
          unfold fetch
          cases dl.download with
          | error e => exact ⟨rfl, rfl⟩
          | ok c => simp [hne.symm, Disk.ask]
        have strip : ∀ (r : Except DErr Loc × Disk B D), (returned r).2 = r.2 := by
          rintro ⟨r1, r2⟩
          cases r1 <;> rfl
        rw [strip] at hch
        cases managed with
        | false =>
          simp only [Bool.false_eq_true, if_false] at hch
          have hne : Loc.unique s1.next ≠ l := by
            intro e
            have := hl s1.next e.symm
            rw [hs1.2.2] at this
            exact Nat.lt_irrefl _ this
          obtain ⟨h1, h2⟩ := fetched (.unique s1.next) { s1 with next := s1.next + 1 } hne
          exact absurd hch (same _ h1 h2)
        | true =>
          simp only [if_true] at hch
          by_cases hne : Loc.keyed c.owner c.url c.parts ext = l
          · rw [hne] at hch
            unfold cacheFileAt at hch
            rw [hs1.1, hfile] at hch
            simp only [hs1.2.1] at hch
            have hood := decide_files (cfg := cfg) (P := P) (dl := dl) (u := c.updateFlag) (old := old) (data := s.data l) (s := s1) (f := c.force)
            have hw := decide_wanted (cfg := cfg) (P := P) (dl := dl) (c := c) (old := old) (data := s.data l) (s := s1)
            obtain ⟨r, er⟩ : ∃ r, r = decide' cfg P dl c.updateFlag old (s.data l) s1 c.force := ⟨_, rfl⟩
            rw [← er] at hood hw hch
            obtain ⟨r1, r2⟩ := r
            cases r1 with
            | error e => exact absurd hch (same r2 (by rw [hood.1]) (by rw [hood.2]))
            | ok b =>
              cases b with
              | false => exact absurd hch (same r2 (by rw [hood.1]) (by rw [hood.2]))
              | true => exact hw rfl
          · -- another file
            have other : (cacheFileAt cfg P dl c.updateFlag c.force (.keyed c.owner c.url c.parts ext) s1).2.files l = s1.files l ∧
                (cacheFileAt cfg P dl c.updateFlag c.force (.keyed c.owner c.url c.parts ext) s1).2.data l = s1.data l := by
              obtain ⟨l', e'⟩ : ∃ l', l' = Loc.keyed c.owner c.url c.parts ext := ⟨_, rfl⟩
              rw [← e'] at hne ⊢
              unfold cacheFileAt
              cases hf : s1.files l' with
              | none => exact fetched l' s1 hne
              | some o =>
                simp only
                have hood := decide_files (cfg := cfg) (P := P) (dl := dl) (u := c.updateFlag) (old := o) (data := s1.data l') (s := s1) (f := c.force)
                obtain ⟨r, er⟩ : ∃ r, r = decide' cfg P dl c.updateFlag o (s1.data l') s1 c.force := ⟨_, rfl⟩
                rw [← er] at hood ⊢
                obtain ⟨r1, r2⟩ := r
                cases r1 with
                | error e => exact ⟨by simp only at hood ⊢; rw [hood.1], by simp only at hood ⊢; rw [hood.2]⟩
                | ok b =>
                  cases b with
                  | false => exact ⟨by simp only at hood ⊢; rw [hood.1], by simp only at hood ⊢; rw [hood.2]⟩
                  | true =>
                    simp only at hood ⊢
                    obtain ⟨h1, h2⟩ := fetched l' (drop l' r2) hne
                    refine ⟨h1.trans ?_, h2.trans ?_⟩
                    · show (if l = l' then none else r2.files l) = _
                      rw [if_neg (Ne.symm hne), hood.1]
                    · show (if l = l' then none else r2.data l) = _
                      rw [if_neg (Ne.symm hne), hood.2]
            exact absurd hch (same _ other.1 other.2)

/-- C70 (part): a path that is returned exists; it was there and nothing has been downloaded, or it holds what has just been downloaded. -/
theorem C70_path_partial (cfg : String → Except Err V) (P : Py) (managed : Bool) (dl : Downloader B D) (c : Call) (s s' : Disk B D) (l : Loc)
    (h : downloadAndCache cfg P managed dl c s = (.ok (some l), s')) :
    (∃ old, s'.files l = some old ∧ s.files l = some old ∧ s'.contacts.count .download = s.contacts.count .download) ∨
      ∃ b, dl.download = .ok b ∧ s'.files l = some b ∧ s'.data l = dl.cacheData ∧ s'.contacts.count .download = s.contacts.count .download + 1 := by
  unfold downloadAndCache at h
  cases ht : cfg "url-download-timeout" with
  | error e => rw [ht] at h; cases h
  | ok x =>
    rw [ht] at h
    simp only at h
    obtain ⟨s1, e1⟩ : ∃ s1, s1 = if dl.asksExtension = true then s.ask .extension else s := ⟨_, rfl⟩
    have hs1 : s1.files = s.files := by
      rw [e1]; split <;> rfl
    have hc1 : s1.contacts.count .download = s.contacts.count .download := by
      rw [e1]; split
      · simp [Disk.ask]
      · rfl
    rw [← e1] at h
    cases he : dl.extension with
    | error e => rw [he] at h; cases h
    | ok ext =>
      rw [he] at h
      simp only at h
      cases hp : dl.localPath with
      | some p => rw [hp] at h; cases h
      | none =>
        rw [hp] at h
        simp only at h
        have fetched : ∀ (l' : Loc) (s2 s3 : Disk B D) (l3 : Loc), fetch dl l' s2 = (.ok l3, s3) → s2.contacts.count .download = s.contacts.count .download →
            l3 = l' ∧ ∃ b, dl.download = .ok b ∧ s3.files l3 = some b ∧ s3.data l3 = dl.cacheData ∧
              s3.contacts.count .download = s.contacts.count .download + 1 := by
          intro l' s2 s3 l3 h hc2
          unfold fetch at h
          cases hd : dl.download with
          | error e => rw [hd] at h; cases h
          | ok b => rw [hd] at h; cases h; exact ⟨rfl, b, rfl, by simp, by simp, by simp [Disk.ask, hc2]⟩
        obtain ⟨r, er⟩ : ∃ r, r = (if managed = true then cacheFileAt cfg P dl c.updateFlag c.force (.keyed c.owner c.url c.parts ext) s1
          else fetch dl (.unique s1.next) { s1 with next := s1.next + 1 }) := ⟨_, rfl⟩
        rw [← er] at h
        obtain ⟨r1, r2⟩ := r
        cases r1 with
        | error e => cases h
        | ok l' =>
          cases h
          cases managed with
          | false =>
            simp only [Bool.false_eq_true, if_false] at er
            obtain ⟨_, hb⟩ := fetched _ _ _ _ er.symm hc1
            exact .inr hb
          | true =>
            simp only [if_true] at er
            unfold cacheFileAt at er
            cases hf : s1.files (.keyed c.owner c.url c.parts ext) with
            | none =>
              rw [hf] at er
              exact .inr (fetched _ _ _ _ er.symm hc1).2
            | some old =>
              rw [hf] at er
              simp only at er
              have hood : (decide' cfg P dl c.updateFlag old (s1.data (.keyed c.owner c.url c.parts ext)) s1 c.force).2.files = s1.files ∧
                  (decide' cfg P dl c.updateFlag old (s1.data (.keyed c.owner c.url c.parts ext)) s1 c.force).2.contacts.count .download = s1.contacts.count .download := by
                unfold decide'
                cases c.force with
                | value b => exact ⟨rfl, rfl⟩
                | callable r => exact ⟨rfl, rfl⟩
                | default =>
                  simp only
                  unfold outOfDate
                  split
                  · exact ⟨rfl, rfl⟩
                  · split
                    · exact ⟨rfl, rfl⟩
                    · split
                      · exact ⟨rfl, by simp [Disk.ask]⟩
                      · exact ⟨rfl, by simp [Disk.ask]⟩
                      · split <;> exact ⟨rfl, by simp [Disk.ask]⟩
              obtain ⟨q, eq⟩ : ∃ q, q = decide' cfg P dl c.updateFlag old (s1.data (.keyed c.owner c.url c.parts ext)) s1 c.force := ⟨_, rfl⟩
              rw [← eq] at er hood
              obtain ⟨q1, q2⟩ := q
              cases q1 with
              | error e => cases er
              | ok b =>
                cases b with
                | true => exact .inr (fetched _ _ _ _ er.symm (hood.2.trans hc1)).2
                | false =>
                  cases er
                  simp only at hood
                  exact .inl ⟨old, by rw [hood.1, hf], by rw [← hs1, hf], hood.2.trans hc1⟩

/-- C70: a caller that insists gets a new download, whatever the configuration of the checks and whatever is in the cache. -/
theorem C70_forced (cfg : String → Except Err V) (P : Py) (dl : Downloader B D) (c : Call) (s : Disk B D) (ext : String) (x : V) (b : B)
    (hforce : c.force = .value true ∨ c.force = .callable (.ok true)) (ht : cfg "url-download-timeout" = .ok x) (he : dl.extension = .ok ext)
    (hl : dl.localPath = none) (hd : dl.download = .ok b) :
    ∃ s', downloadAndCache cfg P true dl c s = (.ok (some (c.loc ext)), s') ∧ s'.files (c.loc ext) = some b ∧ s'.contacts.getLast? = some .download := by
  have fetched : ∀ s2 : Disk B D, ∃ s', fetch dl (c.loc ext) s2 = (.ok (c.loc ext), s') ∧ s'.files (c.loc ext) = some b ∧ s'.contacts.getLast? = some .download := by
    intro s2
    unfold fetch
    rw [hd]
    exact ⟨_, rfl, by simp, by simp [Disk.ask]⟩
  have all : ∀ s2 : Disk B D, ∃ s', cacheFileAt cfg P dl c.updateFlag c.force (c.loc ext) s2 = (.ok (c.loc ext), s') ∧ s'.files (c.loc ext) = some b ∧ s'.contacts.getLast? = some .download := by
    intro s2
    unfold cacheFileAt
    cases s2.files (c.loc ext) with
    | none => exact fetched s2
    | some old => rcases hforce with h | h <;> · rw [h]; exact fetched _
  obtain ⟨s', h1, h2⟩ := all (if dl.asksExtension then s.ask .extension else s)
  refine ⟨s', ?_, h2⟩
  unfold downloadAndCache
  simp only [ht, he, hl, if_true]
  rw [show Loc.keyed c.owner c.url c.parts ext = c.loc ext from rfl, h1]
  rfl

/-- A server with one file. -/
def server (b : Nat) : Downloader Nat Nat := ⟨.ok ".npz", false, none, fun old _ => .ok (old != b), .ok b, some 7⟩

def emptyDisk : Disk Nat Nat := ⟨fun _ => none, fun _ => none, [], 0⟩

/-- Configuration with given values of the two options. -/
def urls (check fetch : V) : String → Except Err V := fun k =>
  if k = "check-out-of-date-urls" then .ok check else if k = "download-out-of-date-urls" then .ok fetch
  else if k = "url-download-timeout" then .ok (.int 30) else .error .key

def holding (b : Nat) : Disk Nat Nat := ⟨fun l => if l = Call.loc { url := "u" } ".npz" then some b else none, fun _ => none, [], 0⟩

example : (downloadAndCache (urls (.bool false) (.bool false)) py true (server 5) { url := "u" } (holding 4)) = (.ok (some (Call.loc { url := "u" } ".npz")), holding 4) :=
  C70_reused_partial _ _ _ _ _ ".npz" (.int 30) 4 rfl rfl rfl rfl rfl rfl (by simp [holding])

example : ∃ s', downloadAndCache (urls (.bool false) (.bool false)) py true (server 5) { url := "u", force := .value true } (holding 4) =
    (.ok (some (Call.loc { url := "u" } ".npz")), s') ∧ s'.files (Call.loc { url := "u" } ".npz") = some 5 ∧ s'.contacts.getLast? = some .download :=
  C70_forced _ _ _ _ _ ".npz" (.int 30) 5 (.inl rfl) rfl rfl rfl rfl

example : (downloadAndCache (urls (.bool true) (.bool true)) py true (server 5) { url := "u" } (holding 4)).2.files (Call.loc { url := "u" } ".npz") = some 5 := by
  decide +kernel

/-- C70 refuted: (1) for a `file:` URL nothing is returned; (2) a URL without extension makes a request although the file is there and the
check is off. -/
theorem C70_refuted : (∃ (dl : Downloader Nat Nat) (c : Call), (downloadAndCache (urls (.bool false) (.bool false)) py true dl c emptyDisk).1 = .ok none) ∧
    ∃ (dl : Downloader Nat Nat) (c : Call) (s : Disk Nat Nat), s.files (c.loc ".npz") = some 5 ∧ dl.download = .ok 5 ∧
      Contact.extension ∈ (downloadAndCache (urls (.bool false) (.bool false)) py true dl c s).2.contacts :=
  ⟨⟨{ server 5 with localPath := some "/data/x.npz" }, { url := "file:///data/x.npz" }, by decide +kernel⟩,
    ⟨{ server 5 with asksExtension := true }, { url := "u" }, holding 5, by decide +kernel, rfl, by decide +kernel⟩⟩

/-- C70 refuted for a falsy value from the settings file: `check-out-of-date-urls: 0` is not `False`, so the server is asked. -/
theorem C70_zero_refuted : truthy py (.int 0) = false ∧
    (downloadAndCache (urls (.int 0) (.bool false)) py true (server 5) { url := "u" } (holding 5)).2.contacts = [.outOfDate] := by
  decide +kernel

/-! ## C92 -/

/-- C92 (part): a failed call keeps all files when no new version was called for (by the server or by the caller). -/
theorem C92_kept_partial (cfg : String → Except Err V) (P : Py) (managed : Bool) (dl : Downloader B D) (c : Call) (s s' : Disk B D) (e : DErr)
    (h : downloadAndCache cfg P managed dl c s = (.error e, s'))
    (hold : ∀ l old, s.files l = some old → ¬Wanted cfg P dl c old (s.data l)) : s'.files = s.files := by
  unfold downloadAndCache at h
  cases ht : cfg "url-download-timeout" with
  | error e => rw [ht] at h; cases h; rfl
  | ok x =>
    rw [ht] at h
    simp only at h
    obtain ⟨s1, e1⟩ : ∃ s1, s1 = if dl.asksExtension = true then s.ask .extension else s := ⟨_, rfl⟩
    have hs1 : s1.files = s.files ∧ s1.data = s.data := by
      rw [e1]; split <;> exact ⟨rfl, rfl⟩
    rw [← e1] at h
    cases he : dl.extension with
    | error e => rw [he] at h; cases h; exact hs1.1
    | ok ext =>
      rw [he] at h
      simp only at h
      cases hp : dl.localPath with
      | some p => rw [hp] at h; cases h
      | none =>
        rw [hp] at h
        simp only at h
        have fetched : ∀ (l' : Loc) (s2 s3 : Disk B D) (e' : DErr), fetch dl l' s2 = (.error e', s3) → s3.files = s2.files := by
          intro l' s2 s3 e' h
          unfold fetch at h
          cases hd : dl.download with
          | error e => rw [hd] at h; cases h; rfl
          | ok b => rw [hd] at h; cases h
        obtain ⟨r, er⟩ : ∃ r, r = (if managed = true then cacheFileAt cfg P dl c.updateFlag c.force (.keyed c.owner c.url c.parts ext) s1
          else fetch dl (.unique s1.next) { s1 with next := s1.next + 1 }) := ⟨_, rfl⟩
        rw [← er] at h
        obtain ⟨r1, r2⟩ := r
        cases r1 with
        | ok l' => cases h
        | error e' =>
          cases h
          rw [← hs1.1]
          cases managed with
          | false =>
            simp only [Bool.false_eq_true, if_false] at er
            have := fetched _ _ _ _ er.symm
            exact this
          | true =>
            simp only [if_true] at er
            unfold cacheFileAt at er
            cases hf : s1.files (.keyed c.owner c.url c.parts ext) with
            | none =>
              rw [hf] at er
              exact fetched _ _ _ _ er.symm
            | some old =>
              rw [hf] at er
              simp only at er
              have indep : ∀ s2 : Disk B D, (decide' cfg P dl c.updateFlag old (s1.data (.keyed c.owner c.url c.parts ext)) s2 c.force).2.files = s2.files ∧
                  (decide' cfg P dl c.updateFlag old (s1.data (.keyed c.owner c.url c.parts ext)) s2 c.force).1 =
                  (decide' cfg P dl c.updateFlag old (s1.data (.keyed c.owner c.url c.parts ext)) s c.force).1 := by
                intro s2
                unfold decide'
                cases c.force with
                | value b => exact ⟨rfl, rfl⟩
                | callable r => exact ⟨rfl, rfl⟩
                | default =>
                  simp only
                  unfold outOfDate
                  split
                  · exact ⟨rfl, rfl⟩
                  · split
                    · exact ⟨rfl, rfl⟩
                    · split
                      · exact ⟨rfl, rfl⟩
                      · exact ⟨rfl, rfl⟩
                      · split <;> exact ⟨rfl, rfl⟩
              have hne : (decide' cfg P dl c.updateFlag old (s.data _) s c.force).1 ≠ .ok true := fun hd =>
                hold _ old (by rw [← hs1.1]; exact hf) (decide_wanted hd)
              rw [← hs1.2] at hne
              obtain ⟨h1, h2⟩ := indep s1
              rw [← h2] at hne
              obtain ⟨q, eq⟩ : ∃ q, q = decide' cfg P dl c.updateFlag old (s1.data (.keyed c.owner c.url c.parts ext)) s1 c.force := ⟨_, rfl⟩
              rw [← eq] at er h1 hne
              obtain ⟨q1, q2⟩ := q
              cases q1 with
              | error e => cases er; exact h1
              | ok b =>
                cases b with
                | true => exact absurd rfl hne
                | false => cases er

/-- `force=False`: the copy is kept although the server has another version. -/
example : ¬Wanted (urls (.bool true) (.bool true)) py (server 5) { url := "u", force := .value false } 4 none := by
  rintro (h | h | ⟨h, _⟩) <;> cases h

/-- The options that decide about downloads can be read. -/
def OptionsRead (cfg : String → Except Err V) : Prop :=
  ∀ k ∈ ["url-download-timeout", "check-out-of-date-urls", "download-out-of-date-urls"], ∃ x, cfg k = .ok x

theorem wanted_decide {cfg : String → Except Err V} {P : Py} {dl : Downloader B D} {c : Call} {old : B} {data : Option D} {s : Disk B D}
    (hcfg : OptionsRead cfg) (h : Wanted cfg P dl c old data) : (decide' cfg P dl c.updateFlag old data s c.force).1 = .ok true := by
  rcases h with h | h | ⟨h, hc, ho, hf⟩
  · rw [h]; rfl
  · rw [h]; rfl
  · rw [h]
    obtain ⟨x, hx⟩ := hcfg "check-out-of-date-urls" (by simp)
    obtain ⟨y, hy⟩ := hcfg "download-out-of-date-urls" (by simp)
    have hxf : x ≠ .bool false := fun e => hc (by unfold CheckOff; rw [hx, e])
    simp only [decide', outOfDate, hx, if_neg hxf, ho, hy]
    rcases hf with hf | ⟨z, hz, ht⟩
    · simp [hf]
    · rw [hy] at hz
      cases hz
      simp [ht]

/-- C92, exactly: a call that fails keeps the cached copy if and only if no new version was called for; otherwise nothing is left of it. No
other file is touched. -/
theorem C92_exact (cfg : String → Except Err V) (P : Py) (dl : Downloader B D) (c : Call) (s s' : Disk B D) (e : DErr) (hcfg : OptionsRead cfg)
    (h : downloadAndCache cfg P true dl c s = (.error e, s')) (ext : String) (he : dl.extension = .ok ext) (old : B)
    (hold : s.files (c.loc ext) = some old) :
    (s'.files (c.loc ext) = some old ↔ ¬Wanted cfg P dl c old (s.data (c.loc ext))) ∧
    (Wanted cfg P dl c old (s.data (c.loc ext)) → s'.files (c.loc ext) = none) ∧ ∀ l, l ≠ c.loc ext → s'.files l = s.files l := by
  obtain ⟨x, hx⟩ := hcfg "url-download-timeout" (by simp)
  unfold downloadAndCache at h
  rw [hx] at h
  simp only [he] at h
  obtain ⟨s1, e1⟩ : ∃ s1, s1 = if dl.asksExtension = true then s.ask .extension else s := ⟨_, rfl⟩
  have hs1 : s1.files = s.files ∧ s1.data = s.data := by
    rw [e1]; split <;> exact ⟨rfl, rfl⟩
  rw [← e1] at h
  rw [← hs1.1] at hold ⊢
  rw [← hs1.2]
  cases hp : dl.localPath with
  | some p => rw [hp] at h; cases h
  | none =>
    rw [hp] at h
    simp only [if_true] at h
    change returned (cacheFileAt cfg P dl c.updateFlag c.force (c.loc ext) s1) = _ at h
    unfold cacheFileAt at h
    rw [hold] at h
    simp only at h
    have hfiles := decide_files (cfg := cfg) (P := P) (dl := dl) (u := c.updateFlag) (old := old) (data := s1.data (c.loc ext)) (s := s1) (f := c.force)
    have hw : Wanted cfg P dl c old (s1.data (c.loc ext)) → (decide' cfg P dl c.updateFlag old (s1.data (c.loc ext)) s1 c.force).1 = .ok true := wanted_decide hcfg
    have hw' : (decide' cfg P dl c.updateFlag old (s1.data (c.loc ext)) s1 c.force).1 = .ok true → Wanted cfg P dl c old (s1.data (c.loc ext)) := decide_wanted
    generalize decide' cfg P dl c.updateFlag old (s1.data (c.loc ext)) s1 c.force = q at *
    obtain ⟨q1, q2⟩ := q
    simp only at hfiles hw hw'
    cases q1 with
    | error e =>
      cases h
      have hn : ¬Wanted cfg P dl c old (s1.data (c.loc ext)) := fun w => by have := hw w; cases this
      rw [hfiles.1]
      exact ⟨⟨fun _ => hn, fun _ => hold⟩, fun w => absurd w hn, fun _ _ => rfl⟩
    | ok b =>
      cases b with
      | false => cases h
      | true =>
        simp only [fetch] at h
        cases hd : dl.download with
        | ok b => rw [hd] at h; cases h
        | error e =>
          rw [hd] at h
          cases h
          refine ⟨⟨fun hf => ?_, fun hn => absurd (hw' rfl) hn⟩, fun _ => ?_, fun l hl => ?_⟩
          · simp [Disk.ask, drop] at hf
          · simp [Disk.ask, drop]
          · simp [Disk.ask, drop, hl, hfiles.1]

/-- Not vacuous: a failed download of a new version. -/
example : OptionsRead (urls (.bool true) (.bool true)) := by
  intro k hk
  simp only [List.mem_cons, List.not_mem_nil, or_false] at hk
  rcases hk with rfl | rfl | rfl <;> exact ⟨_, rfl⟩
example : (downloadAndCache (urls (.bool true) (.bool true)) py true { server 5 with download := .error .net } { url := "u" } (holding 4)).1 = .error .net ∧
    (holding 4).files (Call.loc { url := "u" } ".npz") = some 4 := by decide +kernel

/-- C92 refuted: the old file is deleted before the new one is fetched; when the download fails nothing is left. -/
theorem C92_refuted : ∃ (dl : Downloader Nat Nat) (s' : Disk Nat Nat),
    downloadAndCache (urls (.bool true) (.bool true)) py true dl { url := "u" } (holding 4) = (.error .net, s') ∧
    (holding 4).files (Call.loc { url := "u" } ".npz") = some 4 ∧ s'.files (Call.loc { url := "u" } ".npz") = none :=
  ⟨{ server 5 with download := .error .net }, _, rfl, by decide +kernel, by decide +kernel⟩

/-- `C70_replaced_only_if`, `C70_path_partial`: the copy is out of date and newer versions may be fetched. -/
example : Wanted (urls (.bool true) (.bool true)) py (server 5) { url := "u" } 4 none ∧
    ((∃ old, (downloadAndCache (urls (.bool true) (.bool true)) py true (server 5) { url := "u" } (holding 4)).2.files (Call.loc { url := "u" } ".npz") = some old ∧
      (holding 4).files (Call.loc { url := "u" } ".npz") = some old ∧
      (downloadAndCache (urls (.bool true) (.bool true)) py true (server 5) { url := "u" } (holding 4)).2.contacts.count .download = (holding 4).contacts.count .download) ∨
      ∃ b, (server 5).download = .ok b ∧
        (downloadAndCache (urls (.bool true) (.bool true)) py true (server 5) { url := "u" } (holding 4)).2.files (Call.loc { url := "u" } ".npz") = some b ∧
        (downloadAndCache (urls (.bool true) (.bool true)) py true (server 5) { url := "u" } (holding 4)).2.data (Call.loc { url := "u" } ".npz") = some 7 ∧
        (downloadAndCache (urls (.bool true) (.bool true)) py true (server 5) { url := "u" } (holding 4)).2.contacts.count .download = (holding 4).contacts.count .download + 1) :=
  ⟨C70_replaced_only_if (urls (.bool true) (.bool true)) py true (server 5) { url := "u" } (holding 4) (Call.loc { url := "u" } ".npz") 4 (by simp [holding])
      (by intro n h; cases h) (.inl (by decide +kernel)),
    C70_path_partial (urls (.bool true) (.bool true)) py true (server 5) { url := "u" } (holding 4) _ _ (Prod.ext (by decide +kernel) rfl)⟩

end Verif.DiskCache.Download
