import Verif.Index.SubsetDisk
import Verif.Index.Props

/-! # C107: a subset inventory written to a directory -/

namespace Verif.Index.SubsetDisk
open Verif.GridSpec

variable {W : Type}

/-- Names as those of the published inventory: the file of the entry is below the directory of the inventory. -/
structure Plain (e : Entry) : Prop where
  name : '/' ∉ e.name.toList
  engine : e.raw.engine.head? ≠ some '/'

theorem join_rel (out q : List Char) (h : q.head? ≠ some '/') :
    join out q = out ++ (if out = [] ∨ out.getLast? = some '/' then [] else ['/']) ++ q := by
  unfold join
  split
  · exact absurd rfl h
  · split <;> simp

theorem join_inj (out q q' : List Char) (h : q.head? ≠ some '/') (h' : q'.head? ≠ some '/') (e : join out q = join out q') : q = q' := by
  rw [join_rel out q h, join_rel out q' h'] at e
  exact List.append_cancel_left e

theorem path_form (e : Entry) (he : Plain e) (p : List Char) (h : matrixPath e = .ok p) :
    p.head? ≠ some '/' ∧ p.getLast? = some 'z' := by
  unfold matrixPath dirName at h
  simp only [bind_ok, pure_ok] at h
  obtain ⟨d, ⟨m, _, hd⟩, h⟩ := h
  have hz : (e.name.toList ++ ".npz".toList).getLast? = some 'z' := by rw [List.getLast?_append]; rfl
  have hno : (e.name.toList ++ ".npz".toList).head? ≠ some '/' := by
    cases hh : e.name.toList with
    | nil => decide
    | cons c cs =>
      intro hc
      simp only [List.cons_append, List.head?_cons, Option.some.injEq] at hc
      exact he.name (by rw [hh, hc]; simp)
  rw [join_rel d _ hno] at h
  have hhd : d.head? ≠ some '/' := by
    rw [← hd]
    cases hh : e.raw.engine with
    | nil => simp
    | cons c cs =>
      have := he.engine
      rw [hh] at this
      simpa using this
  have hne : d ≠ [] := by rw [← hd]; simp
  subst h
  constructor
  · cases d with
    | nil => exact absurd rfl hne
    | cons c cs => simpa using hhd
  · rw [List.getLast?_append, hz]; rfl

theorem index_ne (out : List Char) (e : Entry) (he : Plain e) (p : List Char) (h : matrixPath e = .ok p) : join out p ≠ indexAt out := by
  obtain ⟨h1, h2⟩ := path_form e he p h
  intro hc
  have := join_inj out p _ h1 (by decide) hc
  rw [this] at h2
  exact absurd h2 (by decide)

theorem targets_apart (out : List Char) (e e' : Entry) (he : Plain e) (he' : Plain e') (hne : e.name ≠ e'.name) (p p' : List Char)
    (h : matrixPath e = .ok p) (h' : matrixPath e' = .ok p') : join out p ≠ join out p' := by
  intro hc
  have := join_inj out p p' (path_form e he p h).1 (path_form e' he' p' h').1 hc
  subst this
  exact hne (C80_apart e e' p he.name he'.name h h')

/-! ### Copying -/

theorem copy_cases (src : Source W) (out : List Char) (ok dry : Bool) (e : Entry) (d : Disk W) :
    (∃ x, copyMatrixFile src out ok dry e d = (.error x, d)) ∨
    ∃ p w, matrixPath e = .ok p ∧ src.file e = .ok w ∧
      ((dry = true ∧ copyMatrixFile src out ok dry e d = (.ok (join out p), d)) ∨
       (dry = false ∧ (ok = false → d (join out p) = none) ∧
        copyMatrixFile src out ok dry e d = (.ok (join out p), d.set (join out p) (.weights w)))) := by
  unfold copyMatrixFile
  cases hp : matrixPath e with
  | error x => exact .inl ⟨_, rfl⟩
  | ok p =>
    cases hw : src.file e with
    | error x => exact .inl ⟨_, rfl⟩
    | ok w =>
      dsimp only
      split
      · exact .inl ⟨_, rfl⟩
      · rename_i hc
        refine .inr ⟨p, w, rfl, rfl, ?_⟩
        cases dry with
        | true => exact .inl ⟨rfl, rfl⟩
        | false =>
          refine .inr ⟨rfl, ?_, rfl⟩
          rintro rfl
          cases hd : d (join out p) with
          | none => rfl
          | some c => rw [hd] at hc; simp at hc

theorem set_other (d : Disk W) (p q : List Char) (c : Content W) (h : q ≠ p) : d.set p c q = d q := by simp [Disk.set, h]

theorem set_self (d : Disk W) (p : List Char) (c : Content W) : d.set p c p = some c := by simp [Disk.set]

/-- Whatever comes of it, copying changes only the files of the entries; without `exist_ok` none that was there; in a dry run none. -/
theorem copyAll_frame (src : Source W) (out : List Char) (ok dry : Bool) : ∀ (ix : Index) (d : Disk W) (q : List Char),
    (copyAll src out ok dry ix d).2 q ≠ d q → dry = false ∧ (ok = false → d q = none) ∧
      ∃ x ∈ ix, ∃ p, matrixPath x.2 = .ok p ∧ q = join out p
  | [], d, q, h => absurd rfl h
  | x :: ix, d, q, h => by
    unfold copyAll at h
    rcases copy_cases src out ok dry x.2 d with ⟨y, hy⟩ | ⟨p, w, hp, hw, ⟨hd, hy⟩ | ⟨hd, hk, hy⟩⟩
    · rw [hy] at h; exact absurd rfl h
    · rw [hy] at h
      obtain ⟨h1, h2, z, hz, h3⟩ := copyAll_frame src out ok dry ix d q h
      exact ⟨h1, h2, z, List.mem_cons_of_mem _ hz, h3⟩
    · rw [hy] at h
      by_cases hq : q = join out p
      · exact ⟨hd, fun ho => hq ▸ hk ho, x, List.mem_cons_self, p, hp, hq⟩
      · have hs := set_other d (join out p) q (.weights w) hq
        obtain ⟨h1, h2, z, hz, h3⟩ := copyAll_frame src out ok dry ix (Disk.set d (join out p) (.weights w)) q (by rw [hs]; exact h)
        exact ⟨h1, fun ho => hs ▸ h2 ho, z, List.mem_cons_of_mem _ hz, h3⟩

/-- After a success every entry has its file, with the contents of the source. -/
theorem copyAll_done (src : Source W) (out : List Char) (ok : Bool) : ∀ (ix : Index) (d d' : Disk W), (ix.map (fun x => x.2.name)).Nodup →
    (∀ x ∈ ix, Plain x.2) → copyAll src out ok false ix d = (.ok (), d') →
    ∀ x ∈ ix, ∃ p w, matrixPath x.2 = .ok p ∧ src.file x.2 = .ok w ∧ d' (join out p) = some (.weights w)
  | [], _, _, _, _, _ => fun x hx => by cases hx
  | x :: ix, d, d', hn, hpl, h => by
    simp only [List.map_cons, List.nodup_cons] at hn
    unfold copyAll at h
    rcases copy_cases src out ok false x.2 d with ⟨y, hy⟩ | ⟨p, w, hp, hw, ⟨hd, hy⟩ | ⟨_, _, hy⟩⟩
    · rw [hy] at h; cases h
    · cases hd
    · rw [hy] at h
      have hrest : copyAll src out ok false ix (Disk.set d (join out p) (.weights w)) = (.ok (), d') := h
      intro z hz
      rcases List.mem_cons.1 hz with rfl | hz
      · refine ⟨p, w, hp, hw, ?_⟩
        by_contra hne
        have hset : Disk.set d (join out p) (.weights w) (join out p) = some (.weights w) := by simp [Disk.set]
        obtain ⟨_, _, y, hy', p', hp', hq⟩ := copyAll_frame src out ok false ix _ (join out p) (by rw [hrest, hset]; exact hne)
        refine targets_apart out z.2 y.2 (hpl _ List.mem_cons_self) (hpl _ (List.mem_cons_of_mem _ hy')) ?_ p p' hp hp' hq
        intro hc
        exact hn.1 (List.mem_map.2 ⟨y, hy', hc.symm⟩)
      · exact copyAll_done src out ok ix _ d' hn.2 (fun y hy => hpl y (List.mem_cons_of_mem _ hy)) hrest z hz

theorem subsetDb_ok (P : Py) (order : List String) (src : Source W) (fs : List Filter) (out : List Char) (strict fail occupied : Bool)
    (d d' : Disk W) (h : subsetDb P order src fs out strict fail false occupied d = (.ok (), d')) :
    ∃ res d1, subset P order src.index fail fs [] = .ok res ∧ copyAll src out (!strict) false res d = (.ok (), d1) ∧
      d' = d1.set (indexAt out) (.index (toRaw res)) := by
  unfold subsetDb at h
  split at h
  · cases h
  · cases hs : subset P order src.index fail fs [] with
    | error e => rw [hs] at h; cases h
    | ok res =>
      rw [hs] at h
      dsimp only at h
      cases hc : copyAll src out (!strict) false res d with
      | mk r d1 =>
        rw [hc] at h
        cases r with
        | error e => cases h
        | ok u => cases h; exact ⟨res, d1, rfl, hc, rfl⟩

/-- C107: when the tool is done, the directory is an inventory: its index loads; it has entries of the original only, among them the
answer to every listed filter; and for each the weights of the original are there. -/
theorem C107_complete (P : Py) (order : List String) (src : Source W) (fs : List Filter) (out : List Char) (strict fail occupied : Bool)
    (d d' : Disk W) (f : IndexFile) (hn : ∀ es, f.matrix = some es → (es.map Prod.fst).Nodup) (hl : load P f = .ok src.index)
    (hp : ∀ x ∈ src.index, Plain x.2) (h : subsetDb P order src fs out strict fail false occupied d = (.ok (), d')) :
    ∃ res, openIndex P out d' = some res ∧ (∀ x ∈ res, x ∈ src.index) ∧
      (∀ fl ∈ fs, ∀ e, find P order src.index fl.input fl.output fl.methodOf = .ok (some e) → (e.name, e) ∈ res) ∧
      ∀ x ∈ res, ∃ w, src.file x.2 = .ok w ∧ localFile out d' x.2 = some w := by
  obtain ⟨res, d1, hs, hc, rfl⟩ := subsetDb_ok P order src fs out strict fail occupied d d' h
  have hcl := load_clean P f src.index hn hl
  obtain ⟨h1, h2, _, h4, _⟩ := subset_mem P order src.index fail hcl fs [] res (by simp) (by simp) hs
  have hnm : (res.map (fun x => x.2.name)) = res.map Prod.fst :=
    List.map_congr_left (fun x hx => (hcl.forms x (h1 x hx)).1)
  refine ⟨res, ?_, h1, h4, ?_⟩
  · unfold openIndex
    have : Disk.set d1 (indexAt out) (.index (toRaw res)) (indexAt out) = some (.index (toRaw res)) := by simp [Disk.set]
    rw [this]
    show (load P (toRaw res)).toOption = some res
    rw [C42_reloads P order f src.index res fail fs hn hl hs]
    rfl
  · intro x hx
    obtain ⟨p, w, hpa, hw, hd⟩ := copyAll_done src out (!strict) res d d1 (by rw [hnm]; exact h2) (fun y hy => hp y (h1 y hy)) hc x hx
    refine ⟨w, hw, ?_⟩
    unfold localFile
    rw [hpa]
    dsimp only
    rw [set_other _ _ _ _ (index_ne out x.2 (hp x (h1 x hx)) p hpa), hd]

/-- C107: the index of the directory is the file `index.json` in it; that file loads, and is what the directory answers from. -/
theorem C107_index_file (P : Py) (order : List String) (src : Source W) (fs : List Filter) (out : List Char) (strict fail occupied : Bool)
    (d d' : Disk W) (f : IndexFile) (hn : ∀ es, f.matrix = some es → (es.map Prod.fst).Nodup) (hl : load P f = .ok src.index)
    (h : subsetDb P order src fs out strict fail false occupied d = (.ok (), d')) :
    ∃ f' res, d' (join out "index.json".toList) = some (.index f') ∧ load P f' = .ok res ∧ openIndex P out d' = some res := by
  obtain ⟨res, d1, hs, _, rfl⟩ := subsetDb_ok P order src fs out strict fail occupied d d' h
  have h1 : Disk.set d1 (indexAt out) (.index (toRaw res)) (join out "index.json".toList) = some (.index (toRaw res)) := if_pos rfl
  have h2 := C42_reloads P order f src.index res fail fs hn hl hs
  refine ⟨toRaw res, res, h1, h2, ?_⟩
  unfold openIndex
  have : Disk.set d1 (indexAt out) (.index (toRaw res)) (indexAt out) = some (.index (toRaw res)) := if_pos rfl
  rw [this]
  show (load P (toRaw res)).toOption = some res
  rw [h2]
  rfl

theorem copyAll_dry (src : Source W) (out : List Char) (ok : Bool) : ∀ (ix : Index) (d d' : Disk W),
    (copyAll src out ok true ix d).1 = (copyAll src out true false ix d').1
  | [], _, _ => rfl
  | x :: ix, d, d' => by
    have h : ∀ a b c, copyAll src out a b (x :: ix) c = match copyMatrixFile src out a b x.2 c with
      | (.error e, d) => (.error e, d)
      | (.ok _, d) => copyAll src out a b ix d := fun _ _ _ => rfl
    rw [h, h]
    unfold copyMatrixFile
    cases matrixPath x.2 with
    | error e => rfl
    | ok p =>
      dsimp only
      cases src.file x.2 with
      | error e => rfl
      | ok w =>
        simp only [Bool.not_true, Bool.and_false, Bool.false_and, Bool.false_eq_true, if_false, if_true]
        exact copyAll_dry src out ok ix d _

/-- C107: a dry run tells how the run will end: it ends as a run without `strict` on the same inventory and filters does, whatever is in
the directory then. -/
theorem C107_dry_run (P : Py) (order : List String) (src : Source W) (fs : List Filter) (out : List Char) (strict fail occupied occupied' : Bool)
    (d d' : Disk W) :
    (subsetDb P order src fs out strict fail true occupied d).1 = (subsetDb P order src fs out false fail false occupied' d').1 := by
  unfold subsetDb
  simp only [Bool.not_true, Bool.false_and, Bool.false_eq_true, if_false, Bool.and_false, Bool.not_false]
  cases subset P order src.index fail fs [] with
  | error e => rfl
  | ok res =>
    have h := copyAll_dry src out (!strict) res d d'
    dsimp only
    generalize copyAll src out (!strict) true res d = x at h
    generalize copyAll src out true false res d' = y at h
    obtain ⟨x1, x2⟩ := x
    obtain ⟨y1, y2⟩ := y
    dsimp only at h
    subst h
    cases x1 <;> rfl

/-- C107 (part): a filter with one answer in the original gets the same entry and the same weights from the directory.
Missing: filters answered by several entries (C42_refuted). -/
theorem C107_same_weights_partial (P : Py) (order : List String) (src : Source W) (fs : List Filter) (out : List Char)
    (strict fail occupied : Bool) (d d' : Disk W) (f : IndexFile) (hn : ∀ es, f.matrix = some es → (es.map Prod.fst).Nodup)
    (hl : load P f = .ok src.index) (hp : ∀ x ∈ src.index, Plain x.2)
    (h : subsetDb P order src fs out strict fail false occupied d = (.ok (), d'))
    (fl : Filter) (hfl : fl ∈ fs) (e : Entry) (gi go : GS) (hgi : fromDict P fl.input = .ok gi) (hgo : fromDict P fl.output = .ok go)
    (hf : find P order src.index fl.input fl.output fl.methodOf = .ok (some e))
    (hu : ∀ x ∈ src.index, x.2 ≠ e → Miss P order gi go fl.methodOf x.2) :
    ∃ res w, openIndex P out d' = some res ∧ find P order res fl.input fl.output fl.methodOf = .ok (some e) ∧
      src.file e = .ok w ∧ localFile out d' e = some w := by
  obtain ⟨res, h1, h2, h3, h4⟩ := C107_complete P order src fs out strict fail occupied d d' f hn hl hp h
  obtain ⟨res', d1, hs, hc, rfl⟩ := subsetDb_ok P order src fs out strict fail occupied d d' h
  have hre : res' = res := by
    have : openIndex P out (Disk.set d1 (indexAt out) (.index (toRaw res'))) = some res' := by
      unfold openIndex
      have : Disk.set d1 (indexAt out) (.index (toRaw res')) (indexAt out) = some (.index (toRaw res')) := by simp [Disk.set]
      rw [this]
      show (load P (toRaw res')).toOption = some res'
      rw [C42_reloads P order f src.index res' fail fs hn hl hs]
      rfl
    rw [this] at h1
    exact Option.some.inj h1
  subst hre
  obtain ⟨w, hw, hlw⟩ := h4 _ (h3 fl hfl e hf)
  exact ⟨res', w, h1, C42_same_answer_partial P order f src.index res' fail fs hn hl hs fl hfl e gi go hgi hgo hf hu, hw, hlw⟩

theorem frame (P : Py) (order : List String) (src : Source W) (fs : List Filter) (out : List Char) (strict fail dry occupied : Bool)
    (d : Disk W) (q : List Char) (hq : (subsetDb P order src fs out strict fail dry occupied d).2 q ≠ d q) :
    dry = false ∧ (strict = true → occupied = false) ∧
      ((q = indexAt out ∧ ∃ res, subset P order src.index fail fs [] = .ok res) ∨ (strict = true → d q = none) ∧
        ∃ res, subset P order src.index fail fs [] = .ok res ∧ ∃ x ∈ res, ∃ p, matrixPath x.2 = .ok p ∧ q = join out p) := by
  unfold subsetDb at hq
  split at hq
  · exact absurd rfl hq
  · rename_i hg
    cases hs : subset P order src.index fail fs [] with
    | error e => rw [hs] at hq; exact absurd rfl hq
    | ok res =>
      rw [hs] at hq
      dsimp only at hq
      have hfr := copyAll_frame src out (!strict) dry res d q
      cases hc : copyAll src out (!strict) dry res d with
      | mk r d1 =>
        rw [hc] at hq hfr
        have hcopy : d1 q ≠ d q → dry = false ∧ (strict = true → occupied = false) ∧ ((strict = true → d q = none) ∧
            ∃ x ∈ res, ∃ p, matrixPath x.2 = .ok p ∧ q = join out p) := by
          intro h
          obtain ⟨a, b, c⟩ := hfr h
          refine ⟨a, ?_, fun hst => b (by rw [hst]; rfl), c⟩
          rintro rfl
          subst a
          cases occupied with
          | false => rfl
          | true => exact absurd rfl hg
        cases r with
        | error e =>
          obtain ⟨a, b, c, e⟩ := hcopy hq
          exact ⟨a, b, .inr ⟨c, res, rfl, e⟩⟩
        | ok u =>
          cases dry with
          | true =>
            obtain ⟨a, b, c, e⟩ := hcopy hq
            exact ⟨a, b, .inr ⟨c, res, rfl, e⟩⟩
          | false =>
            by_cases hi : q = indexAt out
            · refine ⟨rfl, ?_, .inl ⟨hi, res, rfl⟩⟩
              rintro rfl
              cases occupied with
              | false => rfl
              | true => exact absurd rfl hg
            · have : d1 q ≠ d q := by
                have hq' : Disk.set d1 (indexAt out) (.index (toRaw res)) q ≠ d q := hq
                rwa [set_other _ _ _ _ hi] at hq'
              obtain ⟨a, b, c, e⟩ := hcopy this
              exact ⟨a, b, .inr ⟨c, res, rfl, e⟩⟩

/-- C107: whatever comes of it, the tool writes only below the directory: the index and files of entries; in a dry run nothing; with
`strict`, nothing if the directory has anything in it, and no file that was there. -/
theorem C107_written (P : Py) (order : List String) (src : Source W) (fs : List Filter) (out : List Char) (strict fail dry occupied : Bool)
    (d : Disk W) (f : IndexFile) (hn : ∀ es, f.matrix = some es → (es.map Prod.fst).Nodup) (hl : load P f = .ok src.index)
    (hp : ∀ x ∈ src.index, Plain x.2) (q : List Char)
    (hq : (subsetDb P order src fs out strict fail dry occupied d).2 q ≠ d q) :
    out <+: q ∧ dry = false ∧ (strict = true → occupied = false) ∧ (strict = true → ((d (indexAt out)).isSome → occupied = true) → d q = none) := by
  obtain ⟨h1, h2, h3⟩ := frame P order src fs out strict fail dry occupied d q hq
  have hcl := load_clean P f src.index hn hl
  refine ⟨?_, h1, h2, ?_⟩
  · rcases h3 with ⟨rfl, _⟩ | ⟨_, res, hs, x, hx, p, hpx, rfl⟩
    · unfold indexAt
      rw [join_rel _ _ (by decide), List.append_assoc]
      exact List.prefix_append _ _
    · obtain ⟨m1, _⟩ := subset_mem P order src.index fail hcl fs [] res (by simp) (by simp) hs
      rw [join_rel _ _ (path_form x.2 (hp x (m1 x hx)) p hpx).1, List.append_assoc]
      exact List.prefix_append _ _
  · intro hst ho
    rcases h3 with ⟨rfl, _⟩ | ⟨h, _⟩
    · cases hd : d (indexAt out) with
      | none => rfl
      | some c =>
        have := ho (by rw [hd]; rfl)
        rw [h2 hst] at this
        cases this
    · exact h hst

/-- C107: when the tool fails, the index in the directory is what it was: there is no index of weights that are not there. -/
theorem C107_failed (P : Py) (order : List String) (src : Source W) (fs : List Filter) (out : List Char) (strict fail dry occupied : Bool)
    (d d' : Disk W) (e : Fail) (f : IndexFile) (hn : ∀ es, f.matrix = some es → (es.map Prod.fst).Nodup) (hl : load P f = .ok src.index)
    (hp : ∀ x ∈ src.index, Plain x.2)
    (h : subsetDb P order src fs out strict fail dry occupied d = (.error e, d')) : d' (indexAt out) = d (indexAt out) := by
  have hcl := load_clean P f src.index hn hl
  unfold subsetDb at h
  split at h
  · cases h; rfl
  · cases hs : subset P order src.index fail fs [] with
    | error e => rw [hs] at h; cases h; rfl
    | ok res =>
      rw [hs] at h
      dsimp only at h
      have hfr := copyAll_frame src out (!strict) dry res d (indexAt out)
      obtain ⟨m1, _⟩ := subset_mem P order src.index fail hcl fs [] res (by simp) (by simp) hs
      cases hc : copyAll src out (!strict) dry res d with
      | mk r d1 =>
        rw [hc] at h hfr
        cases r with
        | error e =>
          cases h
          by_contra hne
          obtain ⟨_, _, x, hx, p, hpx, hq⟩ := hfr hne
          exact index_ne out x.2 (hp x (m1 x hx)) p hpx hq.symm
        | ok u => cases dry <;> cases h

/-! ### Where it fails -/

/-- The inventory of the examples: two entries from an ORCA grid, and weights named after them. -/
def twoSource : Source String := ⟨twoIndex, fun e => .ok e.name⟩

theorem two_plain : ∀ x ∈ twoIndex, Plain x.2 := by
  intro x hx
  simp only [twoIndex, List.mem_cons, List.not_mem_nil, or_false] at hx
  rcases hx with rfl | rfl <;> exact ⟨by decide, by decide⟩

def out : List Char := "/s".toList

/-- Not vacuous: a directory is made from a filter answered by one entry. -/
theorem two_done (P : Py) (order : List String) (ho : Enumerates order) : ∃ d',
    subsetDb P order twoSource [⟨orca (some (.int 2)), orca none, none⟩] out true true false false (fun _ => none) = (.ok (), d') := by
  have hd1 : shapesDiffer (orcaSpec (some (.int 1))).d (orcaSpec (some (.int 2))).d = true := by
    rw [orca_shapes]; simp [tupleToList, pyEq, V.num]
  have hd2 : shapesDiffer (orcaSpec none).d (orcaSpec (some (.int 2))).d = false := by rw [orca_shapes]
  have e1 : find P order twoIndex (orca (some (.int 2))) (orca none) "linear".toList = .ok (some (entryOf "b" none)) := by
    rw [orca_find]
    simp only [twoIndex, search, linear_match P order ho, hd1, hd2]
    rfl
  have hs : subset P order twoSource.index true [⟨orca (some (.int 2)), orca none, none⟩] [] = .ok [("b", entryOf "b" none)] := by
    show subset P order twoIndex true [⟨orca (some (.int 2)), orca none, none⟩] [] = _
    simp only [subset, Filter.methodOf, Option.getD_none, e1, bind, Except.bind]
    rfl
  unfold subsetDb
  rw [if_neg (by decide), hs]
  exact ⟨_, rfl⟩

example (P : Py) (order : List String) (ho : Enumerates order) : ∃ d' res, openIndex P out d' = some res ∧ res ≠ [] ∧
    ∀ x ∈ res, localFile out d' x.2 = some x.2.name := by
  obtain ⟨d', hd⟩ := two_done P order ho
  obtain ⟨res, h1, h2, h3, h4⟩ := C107_complete P order twoSource _ out true true false _ d' twoFile
    (by intro es hes; cases hes; decide) (two_load P) two_plain hd
  refine ⟨d', res, h1, ?_, ?_⟩
  · have hd1 : shapesDiffer (orcaSpec (some (.int 1))).d (orcaSpec (some (.int 2))).d = true := by
      rw [orca_shapes]; simp [tupleToList, pyEq, V.num]
    have hd2 : shapesDiffer (orcaSpec none).d (orcaSpec (some (.int 2))).d = false := by rw [orca_shapes]
    have := h3 _ List.mem_cons_self (entryOf "b" none) (by
      show find P order twoIndex (orca (some (.int 2))) (orca none) "linear".toList = _
      rw [orca_find]
      simp only [twoIndex, search, linear_match P order ho, hd1, hd2]
      rfl)
    exact List.ne_nil_of_mem this
  · intro x hx
    obtain ⟨w, hw, hf⟩ := h4 x hx
    cases hw
    exact hf

/-- `C107_index_file`, `C107_same_weights_partial`, `C107_written` for this run. -/
example (P : Py) (order : List String) (ho : Enumerates order) : ∃ d',
    (∃ f' res, d' (join out "index.json".toList) = some (.index f') ∧ load P f' = .ok res ∧ openIndex P out d' = some res) ∧
    localFile out d' (entryOf "b" none) = some "b" ∧ ∀ q, d' q ≠ none → out <+: q := by
  obtain ⟨d', hd⟩ := two_done P order ho
  refine ⟨d', C107_index_file P order twoSource _ out true true false _ d' twoFile two_nodup (two_load P) hd, ?_, fun q hq => ?_⟩
  · obtain ⟨res, w, h1, h2, h3, h4⟩ := C107_same_weights_partial P order twoSource _ out true true false _ d' twoFile two_nodup (two_load P)
      two_plain hd ⟨orca (some (.int 2)), orca none, none⟩ (by simp) (entryOf "b" none) _ _ (orca_fromDict P _) (orca_fromDict P _)
      (two_find P order ho) (by
        intro x hx hne
        replace hx : x ∈ twoIndex := hx
        simp only [twoIndex, List.mem_cons, List.not_mem_nil, or_false] at hx
        rcases hx with rfl | rfl
        · exact two_miss P order ho
        · exact absurd rfl hne)
    cases h3
    exact h4
  · refine (C107_written P order twoSource [⟨orca (some (.int 2)), orca none, none⟩] out true true false false (fun _ => none) twoFile
      two_nodup (two_load P) two_plain q ?_).1
    rw [hd]
    exact hq

/-- `C107_failed`: weights that cannot be fetched. -/
example (P : Py) (order : List String) (ho : Enumerates order) :
    (subsetDb P order (⟨twoIndex, fun _ => .error .source⟩ : Source String) oneFilter out true true false false (fun _ => none)).2 (indexAt out) = none := by
  have h : (subsetDb P order (⟨twoIndex, fun _ => .error .source⟩ : Source String) oneFilter out true true false false (fun _ => none)).1 = .error .source := by
    unfold subsetDb
    rw [if_neg (by decide)]
    rw [one_subset P order ho]
    rfl
  exact C107_failed P order _ _ out true true false false _ _ _ twoFile two_nodup (two_load P) two_plain (Prod.ext h rfl)

/-- C107 refuted: without `strict` (the default of the command) the tool may be run on an inventory; its entries are lost, although
their weights stay. -/
theorem C107_kept_refuted (P : Py) (order : List String) : ∃ (d d' : Disk String),
    openIndex P out d = some twoIndex ∧ (∀ x ∈ twoIndex, localFile out d x.2 = some x.2.name) ∧
    subsetDb P order twoSource [] out false true false true d = (.ok (), d') ∧ openIndex P out d' = some [] := by
  let d : Disk String := fun p =>
    if p = indexAt out then some (.index twoFile)
    else if p = "/s/mir_1_linear/a.npz".toList then some (.weights "a")
    else if p = "/s/mir_1_linear/b.npz".toList then some (.weights "b")
    else none
  refine ⟨d, d.set (indexAt out) (.index (toRaw [])), ?_, ?_, rfl, ?_⟩
  · unfold openIndex
    have : d (indexAt out) = some (.index twoFile) := if_pos rfl
    rw [this]
    show (load P twoFile).toOption = _
    rw [two_load]; rfl
  · intro x hx
    simp only [twoIndex, List.mem_cons, List.not_mem_nil, or_false] at hx
    rcases hx with rfl | rfl <;> rfl
  · unfold openIndex
    rw [set_self]
    rfl

/-- The entry of the examples with the nearest neighbour instead. -/
def nnEntry : Entry := { entryOf "a" none with raw := { rawOf none with method := some (.name "nearest-neighbour".toList) } }

/-- C107 refuted: a filter that names the method as the documentation allows (`nn`) has an answer in lookups, but no subset can be
made with it. -/
theorem C107_alias_refuted (P : Py) (order : List String) (ho : Enumerates order) (strict : Bool) (d : Disk String) :
    find P order [("a", nnEntry)] (orca none) (orca none) (methodAlias "nn".toList) = .ok (some nnEntry) ∧
    subsetDb P order ⟨[("a", nnEntry)], fun _ => .ok "w"⟩ [⟨orca none, orca none, some "nn".toList⟩] out strict true false false d =
      (.error (.spec .value), d) := by
  have h0 := orca_eq P order ho none none
  rw [orca_shapes] at h0
  have h3 : eq P order nnEntry.input (orcaSpec none) = .ok true := h0
  have h4 : eq P order nnEntry.output (orcaSpec none) = .ok true := h0
  have hn : methodName nnEntry.raw = .ok "nearest-neighbour".toList := rfl
  constructor
  · unfold find
    rw [orca_fromDict]
    show search P order (orcaSpec none) (orcaSpec none) "nearest-neighbour".toList [("a", nnEntry)] = _
    have hm : matches_ P order nnEntry (orcaSpec none) (orcaSpec none) "nearest-neighbour".toList = .ok true := by
      unfold matches_
      rw [hn, h3, h4]
      rfl
    simp only [search, hm]
    rfl
  · have hm : matches_ P order nnEntry (orcaSpec none) (orcaSpec none) "nn".toList = .ok false := by
      unfold matches_
      rw [hn]
      rfl
    have hf : find P order [("a", nnEntry)] (orca none) (orca none) "nn".toList = .ok none := by
      unfold find
      rw [orca_fromDict]
      show search P order (orcaSpec none) (orcaSpec none) "nn".toList [("a", nnEntry)] = _
      simp only [search, hm]
      rfl
    have hs : subset P order [("a", nnEntry)] true [⟨orca none, orca none, some "nn".toList⟩] [] = .error .value := by
      simp only [subset, Filter.methodOf, Option.getD_some, hf, bind, Except.bind]
      rfl
    unfold subsetDb
    rw [if_neg (by simp), hs]

/-- An entry whose engine is called like a directory. -/
def strayEntry : Entry := { entryOf "a" none with raw := { rawOf none with engine := "/e/x".toList } }

/-- C107 refuted without `Plain`: an index can make the tool write anywhere. -/
theorem C107_outside_refuted (src : Source String) (hs : src.file strayEntry = .ok "w") (d : Disk String) :
    ∃ q, ¬ out <+: q ∧ (copyMatrixFile src out true false strayEntry d).2 q = some (.weights "w") := by
  refine ⟨"/e/x_1_linear/a.npz".toList, by decide, ?_⟩
  have hp : matrixPath strayEntry = .ok "/e/x_1_linear/a.npz".toList := by rfl
  unfold copyMatrixFile
  rw [hp, hs]
  have hj : join out "/e/x_1_linear/a.npz".toList = "/e/x_1_linear/a.npz".toList := by decide
  dsimp only
  rw [hj]
  simp [Disk.set]

end Verif.Index.SubsetDisk
