import Verif.Mir.StreamProps
import Verif.Mir.Props
import Verif.Mir.Griddef

/-! # C55, C56, C85, C86: griddef files and matrices made by MIR -/

namespace Verif.Mir

open Verif.Regrid (Csr)

variable {N : Type} [DecidableEq N]

theorem writeCoord_some (b : UInt64) : writeCoord (some b) = ⟨(Item.double b).layout, none⟩ := by
  have h := C52_written (.double b) trivial
  show (Item.double b).write = _
  generalize (Item.double b).write = w at h ⊢
  obtain ⟨x, e⟩ := w
  simp only at h
  rw [h.1, h.2]

theorem writePairs_some (points : List (UInt64 × UInt64)) :
    writePairs (points.map (fun p => some p.1)) (points.map (fun p => some p.2)) =
      ⟨points.flatMap (fun p => (Item.double p.1).layout ++ (Item.double p.2).layout), none⟩ := by
  induction points with
  | nil => rfl
  | cons p l ih =>
    rw [List.map_cons, List.map_cons, writePairs, ih, writeCoord_some, writeCoord_some, andThen_none, andThen_none]
    simp

theorem ulong_write {n : Int} (h : 0 ≤ n ∧ n < 4294967296) : (Item.ulong n).write = ⟨field 10 4 n.toNat, none⟩ := by
  have := C52_written (.ulong n) h
  generalize (Item.ulong n).write = w at this ⊢
  obtain ⟨x, e⟩ := w
  simp only at this
  rw [this.1, this.2]
  rfl

theorem content_eq (points : List (UInt64 × UInt64)) (h : points.length < 4294967296) :
    griddefContent (points.map (fun p => some p.1)) (points.map (fun p => some p.2)) = ⟨griddefFile points, none⟩ := by
  unfold griddefContent
  rw [writePairs_some, ulong_write ⟨by omega, by omega⟩, List.length_map,
    ulong_write (n := points.length) ⟨by omega, by omega⟩, andThen_none, andThen_none]
  simp [griddefFile]

/-- C55: the file written for coordinates holds exactly the griddef of these points; no other file changes. -/
theorem C55_exact (d : Dir N) (name : N) (points : List (UInt64 × UInt64)) (hne : points ≠ [])
    (h : points.length < 4294967296) :
    (writeGriddef d name (points.map (fun p => some p.1)) (points.map (fun p => some p.2))).1.toOption = some () ∧
    (writeGriddef d name (points.map (fun p => some p.1)) (points.map (fun p => some p.2))).2 =
      fun x => if x = name then some (griddefFile points) else d x := by
  unfold writeGriddef
  rw [if_neg (by simp; exact hne), content_eq points h]
  exact ⟨rfl, rfl⟩

/-- C55: lists of different lengths or without elements raise before anything is written. -/
theorem C55_refused (d : Dir N) (name : N) (lats lons : List Coord) (h : lats.length ≠ lons.length ∨ lats = []) :
    writeGriddef d name lats lons = (.error .value, d) := by
  unfold writeGriddef
  rw [if_pos]
  rcases h with h | h
  · exact .inl h
  · exact .inr (by rw [h]; rfl)

theorem double_length (b : UInt64) : (Item.double b).layout.length = 9 := by
  simp [Item.layout, bigWord_length]

theorem double_inj {a b : UInt64} (h : (Item.double a).layout = (Item.double b).layout) : a = b := by
  have h4 : (256 : Nat) ^ 4 = 4294967296 := by decide
  have ha := a.toNat_lt
  have hb := b.toNat_lt
  simp only [Item.layout, List.cons.injEq, true_and] at h
  have h' := List.append_inj h (by rw [bigWord_length, bigWord_length])
  have h1 : a.toNat % 4294967296 = b.toNat % 4294967296 := by
    have := congrArg beNat h'.1
    rwa [beNat_bigWord (by omega), beNat_bigWord (by omega)] at this
  have h2 : a.toNat / 4294967296 = b.toNat / 4294967296 := by
    have := congrArg beNat h'.2
    rwa [beNat_bigWord (by omega), beNat_bigWord (by omega)] at this
  exact UInt64.toNat_inj.1 (by omega)

/-- C55: the points can be told from the file. -/
theorem C55_faithful (p q : List (UInt64 × UInt64)) (hp : p.length < 4294967296) (hq : q.length < 4294967296)
    (h : griddefFile p = griddefFile q) : p = q := by
  have h4 : (256 : Nat) ^ 4 = 4294967296 := by decide
  have fl : ∀ n, (field 10 4 n).length = 5 := fun n => by simp [field, bigWord_length]
  unfold griddefFile at h
  rw [List.append_assoc, List.append_assoc] at h
  have h1 := (List.append_inj h rfl).2
  have h2 := List.append_inj h1 (by rw [fl, fl])
  have hl : p.length = q.length := by
    have := congrArg beNat (List.cons.inj h2.1).2
    rwa [beNat_bigWord (by omega), beNat_bigWord (by omega)] at this
  have h3 := h2.2
  clear h h1 h2 hp hq
  induction p generalizing q with
  | nil => cases q with
    | nil => rfl
    | cons y q => simp at hl
  | cons x p ih => cases q with
    | nil => simp at hl
    | cons y q =>
      rw [List.flatMap_cons, List.flatMap_cons, List.append_assoc, List.append_assoc] at h3
      have e1 := List.append_inj h3 (by rw [double_length, double_length])
      have e2 := List.append_inj e1.2 (by rw [double_length, double_length])
      rw [ih q (by simpa using hl) e2.2]
      have a := double_inj e1.1
      have b := double_inj e2.1
      cases x; cases y
      simp only at a b
      rw [a, b]

example : griddefFile [(1, 2)] ≠ griddefFile [(2, 1)] := fun h => by
  have := C55_faithful _ _ (by decide) (by decide) h
  simp at this

/-! ### File names -/

/-- The texts of the elements of a list tell them apart and contain no punctuation of lists. -/
structure Texts.Plain (t : Texts N) (P : Coord → Prop) : Prop where
  inj : ∀ a b, P a → P b → t.elem a = t.elem b → a = b
  clean : ∀ a, P a → ∀ c ∈ t.elem a, c ≠ ',' ∧ c ≠ '[' ∧ c ≠ ']'
  nonempty : ∀ a, P a → t.elem a ≠ []

/-- Two texts without a separator, followed by a separator or by the end: equal together only if equal. -/
theorem split_unique {α : Type} {S : α → Prop} {a a' r r' : List α} (ha : ∀ c ∈ a, ¬ S c) (ha' : ∀ c ∈ a', ¬ S c)
    (hr : ∀ c t, r = c :: t → S c) (hr' : ∀ c t, r' = c :: t → S c) (hne : r ≠ []) (hne' : r' ≠ [])
    (h : a ++ r = a' ++ r') : a = a' ∧ r = r' := by
  induction a generalizing a' with
  | nil =>
    cases a' with
    | nil => exact ⟨rfl, h⟩
    | cons c a' =>
      cases r with
      | nil => exact absurd rfl hne
      | cons y r =>
        simp at h
        exact absurd (hr _ _ rfl) (h.1 ▸ ha' c (List.mem_cons_self ..))
  | cons x a ih =>
    cases a' with
    | nil =>
      cases r' with
      | nil => exact absurd rfl hne'
      | cons y r' =>
        simp at h
        exact absurd (hr' _ _ rfl) (h.1 ▸ ha x (List.mem_cons_self ..))
    | cons c a' =>
      simp only [List.cons_append, List.cons.injEq] at h
      have := ih (fun c hc => ha c (List.mem_cons_of_mem _ hc)) (fun c hc => ha' c (List.mem_cons_of_mem _ hc)) h.2
      exact ⟨by rw [h.1, this.1], this.2⟩

omit [DecidableEq N] in
theorem join_inj {t : Texts N} {P : Coord → Prop} (ht : t.Plain P) (l l' : List Coord) (hl : ∀ x ∈ l, P x) (hl' : ∀ x ∈ l', P x)
    (r r' : List Char) (h : commaJoin (l.map t.elem) ++ ']' :: r = commaJoin (l'.map t.elem) ++ ']' :: r') :
    l = l' ∧ r = r' := by
  have sep : ∀ a, P a → ∀ c ∈ t.elem a, ¬ (c = ',' ∨ c = ']') :=
    fun a ha c hc hs => by rcases hs with hs | hs
                           · exact (ht.clean a ha c hc).1 hs
                           · exact (ht.clean a ha c hc).2.2 hs
  have start : ∀ (a : Coord) (m : List Coord), ∃ s, commaJoin ((a :: m).map t.elem) = t.elem a ++ s := by
    intro a m
    cases m with
    | nil => exact ⟨[], by simp [commaJoin]⟩
    | cons b m => exact ⟨[',', ' '] ++ commaJoin ((b :: m).map t.elem), by simp [commaJoin]⟩
  have notClosed : ∀ (a : Coord) (m : List Coord) (q q' : List Char), P a →
      commaJoin ((a :: m).map t.elem) ++ q ≠ ']' :: q' := by
    intro a m q q' ha hh
    obtain ⟨s, hs⟩ := start a m
    rw [hs] at hh
    cases he : t.elem a with
    | nil => exact ht.nonempty a ha he
    | cons c cs =>
      rw [he] at hh
      simp at hh
      exact (ht.clean a ha c (by rw [he]; exact List.mem_cons_self ..)).2.2 hh.1
  induction l generalizing l' with
  | nil =>
    cases l' with
    | nil => simpa [commaJoin] using h
    | cons b l' => exact absurd h.symm (notClosed b l' _ _ (hl' b (List.mem_cons_self ..)))
  | cons a l ih =>
    cases l' with
    | nil => exact absurd h (notClosed a l _ _ (hl a (List.mem_cons_self ..)))
    | cons b l' =>
      have pa := hl a (List.mem_cons_self ..)
      have pb := hl' b (List.mem_cons_self ..)
      have key : ∀ u v : List Char, (∃ c s, u = c :: s ∧ (c = ',' ∨ c = ']')) → (∃ c s, v = c :: s ∧ (c = ',' ∨ c = ']')) →
          t.elem a ++ u = t.elem b ++ v → a = b ∧ u = v := by
        rintro u v ⟨c, s, rfl, hc⟩ ⟨c', s', rfl, hc'⟩ huv
        have := split_unique (S := fun c => c = ',' ∨ c = ']') (sep a pa) (sep b pb)
          (by intro x y hx; cases hx; exact hc) (by intro x y hx; cases hx; exact hc') (by simp) (by simp) huv
        exact ⟨ht.inj a b pa pb this.1, this.2⟩
      cases l with
      | nil =>
        cases l' with
        | nil =>
          have := key (']' :: r) (']' :: r') ⟨_, _, rfl, .inr rfl⟩ ⟨_, _, rfl, .inr rfl⟩ (by simpa [commaJoin] using h)
          exact ⟨by rw [this.1], (List.cons.inj this.2).2⟩
        | cons b' l' =>
          have := key (']' :: r) ([',', ' '] ++ commaJoin ((b' :: l').map t.elem) ++ ']' :: r') ⟨_, _, rfl, .inr rfl⟩
            ⟨_, _, rfl, .inl rfl⟩ (by simpa [commaJoin] using h)
          exact absurd (List.cons.inj this.2).1 (by decide)
      | cons a' l =>
        cases l' with
        | nil =>
          have := key ([',', ' '] ++ commaJoin ((a' :: l).map t.elem) ++ ']' :: r) (']' :: r') ⟨_, _, rfl, .inl rfl⟩
            ⟨_, _, rfl, .inr rfl⟩ (by simpa [commaJoin] using h)
          exact absurd (List.cons.inj this.2).1 (by decide)
        | cons b' l' =>
          have := key ([',', ' '] ++ commaJoin ((a' :: l).map t.elem) ++ ']' :: r)
            ([',', ' '] ++ commaJoin ((b' :: l').map t.elem) ++ ']' :: r') ⟨_, _, rfl, .inl rfl⟩
            ⟨_, _, rfl, .inl rfl⟩ (by simpa [commaJoin] using h)
          have h2 := ih (b' :: l') (fun x hx => hl x (List.mem_cons_of_mem _ hx)) (fun x hx => hl' x (List.mem_cons_of_mem _ hx))
            (by simpa using this.2)
          exact ⟨by rw [this.1, h2.1], h2.2⟩

omit [DecidableEq N] in
/-- C56 for python lists: different coordinates have different files. Missing: numpy arrays. -/
theorem C56_lists_partial (t : Texts N) (P : Coord → Prop) (ht : t.Plain P) (hmd5 : Function.Injective t.md5)
    (lat lon lat' lon' : List Coord) (h1 : ∀ x ∈ lat, P x) (h2 : ∀ x ∈ lon, P x) (h3 : ∀ x ∈ lat', P x) (h4 : ∀ x ∈ lon', P x)
    (h : t.name (.list lat) (.list lon) = t.name (.list lat') (.list lon')) : lat = lat' ∧ lon = lon' := by
  have := hmd5 h
  simp only [Texts.str, List.append_assoc, List.cons_append, List.nil_append, List.cons.injEq, true_and] at this
  have a := join_inj ht lat lat' h1 h3 _ _ this
  have b := join_inj ht lon lon' h2 h4 [] [] (by simpa using a.2)
  exact ⟨a.1, b.1⟩

omit [DecidableEq N] in
/-- C56 fails for numpy arrays of more than 1000 points: whatever the digest, arrays that agree in the first three and last
three elements share a file, even arrays of different lengths. -/
theorem C56_refuted (t : Texts N) (first last mid mid' : List Coord) (lon : Seq) (hf : first.length = 3) (hl : last.length = 3)
    (hm : mid.length > 994) (hm' : mid'.length > 994) :
    t.name (.array (first ++ mid ++ last)) lon = t.name (.array (first ++ mid' ++ last)) lon := by
  have key : ∀ m : List Coord, m.length > 994 →
      t.str (.array (first ++ m ++ last)) = t.edges first last := by
    intro m hm
    have hlen : (first ++ m ++ last).length = m.length + 6 := by simp [hf, hl]; omega
    show (if (first ++ m ++ last).length > 1000 then _ else _) = _
    rw [if_pos (by omega), hlen]
    congr 1
    · rw [List.append_assoc, List.take_left' hf]
    · rw [List.drop_left' (by simp [hf]; omega)]
  unfold Texts.name
  rw [key mid hm, key mid' hm']

/-- … so the second of them silently gets the points of the first. -/
theorem C56_wrong_points_refuted (t : Texts N) (d : Dir N) (first last mid mid' : List Coord) (lon : Seq)
    (hf : first.length = 3) (hl : last.length = 3) (hm : mid.length > 994) (hm' : mid'.length > 994) (b : Bytes)
    (h : d (t.name (.array (first ++ mid ++ last)) lon) = some b) :
    griddefFrom t d (.array (first ++ mid' ++ last)) lon = (.ok (t.name (.array (first ++ mid ++ last)) lon), d) := by
  unfold griddefFrom
  simp only
  rw [C56_refuted t first last mid' mid lon hf hl hm' hm, h]

example : ∃ mid mid' : List Coord, mid.length > 994 ∧ mid'.length > 994 ∧ mid ≠ mid' :=
  ⟨List.replicate 995 none, List.replicate 996 none, by rw [List.length_replicate]; omega,
    by rw [List.length_replicate]; omega, fun h => by
    have := congrArg List.length h
    rw [List.length_replicate, List.length_replicate] at this
    omega⟩

/-! Short arrays: numpy prints their elements with eight digits after the point (its default `precision`). Numbers from 1 to 2 are
`1 + k / 2^52`. -/

/-- The coordinate `1 + k / 2^52`. -/
def fromOne (k : Nat) : Coord := some (UInt64.ofNat (1023 * 2 ^ 52 + k))

/-- The eight digits after the point of `1 + k / 2^52`, rounded. -/
def digits8 (k : Nat) : Nat := (k * 10 ^ 8 + 2 ^ 51) / 2 ^ 52

/-- Arrays of numbers from 1 to 2 are printed by eight digits after the point of each. -/
def Texts.Eight (t : Texts N) : Prop :=
  ∀ l l' : List Nat, (∀ k ∈ l, k < 2 ^ 52) → (∀ k ∈ l', k < 2 ^ 52) → l.map digits8 = l'.map digits8 →
    t.full (l.map fromOne) = t.full (l'.map fromOne)

/-- C56 fails for numpy arrays of any length up to 1000: arrays that agree in eight digits after the point share a file, and for every
length there are such arrays that differ. -/
theorem C56_short_refuted (t : Texts N) (ht : t.Eight) (lon : Seq) :
    (∀ l l' : List Nat, l.length ≤ 1000 → (∀ k ∈ l, k < 2 ^ 52) → (∀ k ∈ l', k < 2 ^ 52) → l.map digits8 = l'.map digits8 →
      t.name (.array (l.map fromOne)) lon = t.name (.array (l'.map fromOne)) lon) ∧
    ∀ n, 0 < n → n ≤ 1000 → ∃ a b : List Coord, a ≠ b ∧ a.length = n ∧ b.length = n ∧
      t.name (.array a) lon = t.name (.array b) lon := by
  have key : ∀ l l' : List Nat, l.length ≤ 1000 → (∀ k ∈ l, k < 2 ^ 52) → (∀ k ∈ l', k < 2 ^ 52) → l.map digits8 = l'.map digits8 →
      t.name (.array (l.map fromOne)) lon = t.name (.array (l'.map fromOne)) lon := by
    intro l l' hl h1 h2 h3
    have hlen : l'.length = l.length := by simpa using (congrArg List.length h3).symm
    have e : t.str (.array (l.map fromOne)) = t.str (.array (l'.map fromOne)) := by
      unfold Texts.str
      simp only [List.length_map]
      rw [if_neg (by omega), if_neg (by omega)]
      exact ht l l' h1 h2 h3
    unfold Texts.name
    rw [e]
  refine ⟨key, fun n h0 hn => ?_⟩
  refine ⟨(List.replicate n 0).map fromOne, (List.replicate n 1).map fromOne, ?_, by simp, by simp, ?_⟩
  · obtain ⟨m, rfl⟩ : ∃ m, n = m + 1 := ⟨n - 1, by omega⟩
    rw [List.replicate_succ, List.replicate_succ, List.map_cons, List.map_cons]
    intro h
    have := (List.cons.inj h).1
    unfold fromOne at this
    simp at this
  · refine key _ _ (by simp [hn]) ?_ ?_ ?_
    · intro k hk; rw [List.eq_of_mem_replicate hk]; norm_num
    · intro k hk; rw [List.eq_of_mem_replicate hk]; norm_num
    · rw [List.map_replicate, List.map_replicate, show digits8 0 = 0 by norm_num [digits8], show digits8 1 = 0 by norm_num [digits8]]

def print8 : Coord → List Char
  | some b => Nat.toDigits 10 (digits8 (b.toNat - 4607182418800017408))
  | none => "nan".toList

/-- A printer with eight digits: the array as the text of its rounded numbers. -/
def eight : Texts (List Char) where
  elem := fun _ => []
  full := fun l => (l.map print8).flatten
  edges := fun _ _ => []
  md5 := id

theorem fromOne_nat (k : Nat) (h : k < 2 ^ 52) : (UInt64.ofNat (1023 * 2 ^ 52 + k)).toNat - 4607182418800017408 = k := by
  rw [UInt64.toNat_ofNat']
  rw [Nat.mod_eq_of_lt (by omega)]
  omega

theorem print8_some (b : UInt64) : print8 (some b) = Nat.toDigits 10 (digits8 (b.toNat - 4607182418800017408)) := rfl

theorem eight_full (x : List Coord) : eight.full x = (x.map print8).flatten := rfl

theorem fromOne_some (k : Nat) : fromOne k = some (UInt64.ofNat (1023 * 2 ^ 52 + k)) := rfl

theorem print8_fromOne (k : Nat) (h : k < 2 ^ 52) : print8 (fromOne k) = Nat.toDigits 10 (digits8 k) := by
  rw [fromOne_some, print8_some, fromOne_nat k h]

theorem flat_map {A B : Type} (f g : A → List B) (l : List A) (h : ∀ k ∈ l, f k = g k) : (l.map f).flatten = (l.map g).flatten := by
  rw [List.map_congr_left h]

theorem eight_print (l : List Nat) (h : ∀ k ∈ l, k < 2 ^ 52) :
    eight.full (l.map fromOne) = (l.map (fun k => Nat.toDigits 10 (digits8 k))).flatten := by
  have h1 := flat_map (fun k => print8 (fromOne k)) (fun k => Nat.toDigits 10 (digits8 k)) l (fun k hk => print8_fromOne k (h k hk))
  rw [eight_full, List.map_map, ← h1]
  rfl

theorem map_of_map {A B C : Type} (f : A → B) (g : B → C) (l : List A) : l.map (fun k => g (f k)) = (l.map f).map g := by
  rw [List.map_map]; rfl

example : eight.Eight := by
  intro l l' h h' he
  rw [eight_print l h, eight_print l' h', map_of_map digits8 (Nat.toDigits 10) l, map_of_map digits8 (Nat.toDigits 10) l', he]

/-! ### C85: the content of the files that are returned -/

/-- Asks for files of lists of points, one after the other. -/
def griddefRun (t : Texts N) : Dir N → List (List Coord × List Coord) → Dir N
  | d, [] => d
  | d, (lat, lon) :: l => griddefRun t (griddefFrom t d (.list lat) (.list lon)).2 l

/-- Points as the two lists of their coordinates. -/
def lats (p : List (UInt64 × UInt64)) : List Coord := p.map (fun x => some x.1)
def lons (p : List (UInt64 × UInt64)) : List Coord := p.map (fun x => some x.2)

theorem lats_lons_inj {p q : List (UInt64 × UInt64)} (h1 : lats p = lats q) (h2 : lons p = lons q) : p = q := by
  induction p generalizing q with
  | nil => cases q with
    | nil => rfl
    | cons y q => simp [lats] at h1
  | cons x p ih => cases q with
    | nil => simp [lats] at h1
    | cons y q =>
      simp only [lats, lons, List.map_cons, List.cons.injEq, Option.some.injEq] at h1 h2
      rw [ih (q := q) h1.2 h2.2]
      cases x; cases y
      simp only at h1 h2
      rw [h1.1, h2.1]

/-- Every file in the directory is the griddef of every list of points with its name. -/
def Consistent (t : Texts N) (P : Coord → Prop) (d : Dir N) : Prop :=
  ∀ p : List (UInt64 × UInt64), (∀ x ∈ lats p ++ lons p, P x) → ∀ b, d (t.name (.list (lats p)) (.list (lons p))) = some b →
    b = griddefFile p

theorem griddefFrom_consistent {t : Texts N} {P : Coord → Prop} (ht : t.Plain P) (hmd5 : Function.Injective t.md5) {d : Dir N}
    (hd : Consistent t P d) (p : List (UInt64 × UInt64)) (hp : ∀ x ∈ lats p ++ lons p, P x) (hne : p ≠ [])
    (hlen : p.length < 4294967296) :
    Consistent t P (griddefFrom t d (.list (lats p)) (.list (lons p))).2 ∧
      ∃ n, (griddefFrom t d (.list (lats p)) (.list (lons p))).1 = .ok n ∧
        (griddefFrom t d (.list (lats p)) (.list (lons p))).2 n = some (griddefFile p) := by
  unfold griddefFrom
  simp only [Seq.items]
  cases hb : d (t.name (.list (lats p)) (.list (lons p))) with
  | some b => exact ⟨hd, _, rfl, by simp only; rw [hb, hd p hp b hb]⟩
  | none =>
    have hw := C55_exact d (t.name (.list (lats p)) (.list (lons p))) p hne hlen
    rw [← lats, ← lons] at hw
    generalize writeGriddef d (t.name (.list (lats p)) (.list (lons p))) (lats p) (lons p) = r at hw ⊢
    obtain ⟨e, d'⟩ := r
    cases e with
    | error e => simp [Except.toOption] at hw
    | ok u =>
      simp only at hw ⊢
      refine ⟨?_, _, rfl, by rw [hw.2]; simp⟩
      intro q hq b hqb
      rw [hw.2] at hqb
      simp only at hqb
      split at hqb
      · rename_i hn
        have := C56_lists_partial t P ht hmd5 _ _ _ _ (fun x hx => hq x (List.mem_append_left _ hx))
          (fun x hx => hq x (List.mem_append_right _ hx)) (fun x hx => hp x (List.mem_append_left _ hx))
          (fun x hx => hp x (List.mem_append_right _ hx)) hn
        rw [lats_lons_inj this.1 this.2]
        exact (Option.some.inj hqb).symm
      · exact hd q hq b hqb

/-- C85, for calls with lists of floats that are not interrupted: through every sequence of calls from an empty directory, each
call returns a file that holds exactly its points. -/
theorem C85_content_partial (t : Texts N) (P : Coord → Prop) (ht : t.Plain P) (hmd5 : Function.Injective t.md5)
    (calls : List (List (UInt64 × UInt64))) (hc : ∀ p ∈ calls, p ≠ [] ∧ p.length < 4294967296 ∧ ∀ x ∈ lats p ++ lons p, P x)
    (p : List (UInt64 × UInt64)) (hp : p ≠ [] ∧ p.length < 4294967296 ∧ ∀ x ∈ lats p ++ lons p, P x) :
    let d := griddefRun t (fun _ => none) (calls.map (fun q => (lats q, lons q)))
    ∃ n, (griddefFrom t d (.list (lats p)) (.list (lons p))).1 = .ok n ∧
      (griddefFrom t d (.list (lats p)) (.list (lons p))).2 n = some (griddefFile p) := by
  have run : ∀ (calls : List (List (UInt64 × UInt64))) (d : Dir N), Consistent t P d →
      (∀ p ∈ calls, p ≠ [] ∧ p.length < 4294967296 ∧ ∀ x ∈ lats p ++ lons p, P x) →
      Consistent t P (griddefRun t d (calls.map (fun q => (lats q, lons q)))) := by
    intro calls
    induction calls with
    | nil => intro d hd _; exact hd
    | cons q l ih =>
      intro d hd hl
      have hq := hl q (List.mem_cons_self ..)
      exact ih _ (griddefFrom_consistent ht hmd5 hd q hq.2.2 hq.1 hq.2.1).1 (fun x hx => hl x (List.mem_cons_of_mem _ hx))
  have h0 : Consistent t P (fun _ => none) := fun _ _ _ h => by cases h
  exact (griddefFrom_consistent ht hmd5 (run calls _ h0 hc) p hp.2.2 hp.1 hp.2.1).2

/-- Every file in the directory that has the name of a list of points is its griddef. -/
def Right (t : Texts N) (P : Coord → Prop) (d : Dir N) : Prop :=
  ∀ p : List (UInt64 × UInt64), p ≠ [] → p.length < 4294967296 → (∀ x ∈ lats p ++ lons p, P x) →
    ∀ b, d (t.name (.list (lats p)) (.list (lons p))) = some b → b = griddefFile p

theorem griddefFrom_right {t : Texts N} {P : Coord → Prop} (ht : t.Plain P) (hmd5 : Function.Injective t.md5) {d : Dir N}
    (hd : Right t P d) (lat lon : List Coord) (h1 : ∀ x ∈ lat, P x) (h2 : ∀ x ∈ lon, P x) :
    Right t P (griddefFrom t d (.list lat) (.list lon)).2 := by
  intro p hne hlen hp b hb
  by_cases hn : t.name (.list (lats p)) (.list (lons p)) = t.name (.list lat) (.list lon)
  · obtain ⟨e1, e2⟩ := C56_lists_partial t P ht hmd5 _ _ _ _ (fun x hx => hp x (List.mem_append_left _ hx))
      (fun x hx => hp x (List.mem_append_right _ hx)) h1 h2 hn
    subst e1 e2
    cases hx : d (t.name (.list (lats p)) (.list (lons p))) with
    | some b' =>
      have : (griddefFrom t d (.list (lats p)) (.list (lons p))).2 = d := by unfold griddefFrom; simp only [hx]
      rw [this] at hb
      exact hd p hne hlen hp b hb
    | none =>
      have hw := C55_exact d (t.name (.list (lats p)) (.list (lons p))) p hne hlen
      rw [← lats, ← lons] at hw
      have e : (griddefFrom t d (.list (lats p)) (.list (lons p))).2 =
          (writeGriddef d (t.name (.list (lats p)) (.list (lons p))) (lats p) (lons p)).2 := by
        unfold griddefFrom
        simp only [hx, Seq.items]
        generalize writeGriddef d (t.name (.list (lats p)) (.list (lons p))) (lats p) (lons p) = r
        obtain ⟨r, d'⟩ := r
        cases r <;> rfl
      rw [e, hw.2] at hb
      simp only [if_true] at hb
      exact (Option.some.inj hb).symm
  · have e : (griddefFrom t d (.list lat) (.list lon)).2 (t.name (.list (lats p)) (.list (lons p))) =
        d (t.name (.list (lats p)) (.list (lons p))) := by
      unfold griddefFrom
      simp only [Seq.items]
      cases d (t.name (.list lat) (.list lon)) with
      | some _ => rfl
      | none =>
        have hw : (writeGriddef d (t.name (.list lat) (.list lon)) lat lon).2 (t.name (.list (lats p)) (.list (lons p))) =
            d (t.name (.list (lats p)) (.list (lons p))) := by
          unfold writeGriddef
          split
          · rfl
          · show (d.set _ _) _ = _
            unfold Dir.set
            rw [if_neg hn]
        generalize writeGriddef d (t.name (.list lat) (.list lon)) lat lon = r at hw ⊢
        obtain ⟨r, d'⟩ := r
        cases r <;> exact hw
    rw [e] at hb
    exact hd p hne hlen hp b hb

/-- C85, calls that raise included: through every sequence of calls with lists of any elements and lengths from an empty directory,
whatever the calls raised, a call with floats returns a file that holds exactly its points. (What a call that raised has left has the
name of coordinates that are not all floats.) Missing: numpy arrays, and processes that are killed while they write. -/
theorem C85_exceptions_partial (t : Texts N) (P : Coord → Prop) (ht : t.Plain P) (hmd5 : Function.Injective t.md5)
    (calls : List (List Coord × List Coord)) (hc : ∀ c ∈ calls, ∀ x ∈ c.1 ++ c.2, P x)
    (p : List (UInt64 × UInt64)) (hp : p ≠ [] ∧ p.length < 4294967296 ∧ ∀ x ∈ lats p ++ lons p, P x) :
    let d := griddefRun t (fun _ => none) calls
    ∃ n, (griddefFrom t d (.list (lats p)) (.list (lons p))).1 = .ok n ∧
      (griddefFrom t d (.list (lats p)) (.list (lons p))).2 n = some (griddefFile p) := by
  have run : ∀ (calls : List (List Coord × List Coord)) (d : Dir N), Right t P d → (∀ c ∈ calls, ∀ x ∈ c.1 ++ c.2, P x) →
      Right t P (griddefRun t d calls) := by
    intro calls
    induction calls with
    | nil => intro d hd _; exact hd
    | cons q l ih =>
      intro d hd hl
      have hq := hl q (List.mem_cons_self ..)
      exact ih _ (griddefFrom_right ht hmd5 hd q.1 q.2 (fun x hx => hq x (List.mem_append_left _ hx))
        (fun x hx => hq x (List.mem_append_right _ hx))) (fun x hx => hl x (List.mem_cons_of_mem _ hx))
  have hR := run calls (fun _ => none) (fun _ _ _ _ _ h => by cases h) hc
  intro d
  change Right t P d at hR
  generalize d = d at hR
  cases hx : d (t.name (.list (lats p)) (.list (lons p))) with
  | some b =>
    refine ⟨t.name (.list (lats p)) (.list (lons p)), ?_, ?_⟩
    · unfold griddefFrom; simp only [hx]
    · have e : (griddefFrom t d (.list (lats p)) (.list (lons p))).2 = d := by unfold griddefFrom; simp only [hx]
      rw [e, hx, hR p hp.1 hp.2.1 hp.2.2 b hx]
  | none =>
    have hw := C55_exact d (t.name (.list (lats p)) (.list (lons p))) p hp.1 hp.2.1
    rw [← lats, ← lons] at hw
    unfold griddefFrom
    simp only [Seq.items, hx]
    generalize writeGriddef d (t.name (.list (lats p)) (.list (lons p))) (lats p) (lons p) = r at hw ⊢
    obtain ⟨e, d'⟩ := r
    cases e with
    | error e => simp [Except.toOption] at hw
    | ok u => exact ⟨_, rfl, by rw [hw.2]; simp⟩

/-- C85 fails after a crash in a call: a file that exists is returned whatever it holds. -/
theorem C85_unchecked_refuted (t : Texts N) (d : Dir N) (lat lon : Seq) (b : Bytes) (h : d (t.name lat lon) = some b) :
    griddefFrom t d lat lon = (.ok (t.name lat lon), d) := by
  unfold griddefFrom
  simp only
  rw [h]

/-- C85 fails when a call was interrupted, here by an element that is not a float: the unfinished file stays, and the next call
with the same coordinates returns it without a complaint. -/
theorem C85_refuted (t : Texts N) (a : UInt64) :
    let lat : Seq := .list [some a, none]
    let d := (griddefFrom t (fun _ => none) lat lat).2
    (griddefFrom t (fun _ => none) lat lat).1 = .error .struct ∧
    (griddefFrom t d lat lat).1 = .ok (t.name lat lat) ∧
    ∃ b, (griddefFrom t d lat lat).2 (t.name lat lat) = some b ∧ ∀ p, b ≠ griddefFile p := by
  have hw : griddefContent [some a, none] [some a, none] =
      ⟨field 10 4 1 ++ field 10 4 2 ++ ((Item.double a).layout ++ (Item.double a).layout ++ [14]), some .struct⟩ := by
    unfold griddefContent
    rw [ulong_write (n := 1) ⟨by omega, by omega⟩, writePairs, writePairs, writeCoord_some,
      show (([some a, none] : List Coord).length : Int) = 2 from rfl, ulong_write (n := 2) ⟨by omega, by omega⟩]
    rfl
  have hf : griddefFrom t (fun _ => none) (.list [some a, none]) (.list [some a, none]) =
      (.error .struct, Dir.set (fun _ => none) (t.name (.list [some a, none]) (.list [some a, none]))
        (field 10 4 1 ++ field 10 4 2 ++ ((Item.double a).layout ++ (Item.double a).layout ++ [14]))) := by
    simp only [griddefFrom, Seq.items, writeGriddef, hw]
    rfl
  refine ⟨by rw [hf], ?_, ?_⟩
  · rw [hf]
    simp [griddefFrom, Dir.set]
  · refine ⟨field 10 4 1 ++ field 10 4 2 ++ ((Item.double a).layout ++ (Item.double a).layout ++ [14]), ?_, ?_⟩
    · rw [hf]
      simp [griddefFrom, Dir.set]
    · intro p h
      have hl := congrArg List.length h
      have fl : ∀ n, (field 10 4 n).length = 5 := fun n => by simp [field, bigWord_length]
      have fm : ∀ p : List (UInt64 × UInt64),
          (p.flatMap (fun p => (Item.double p.1).layout ++ (Item.double p.2).layout)).length = 18 * p.length := by
        intro p
        induction p with
        | nil => rfl
        | cons x p ih => rw [List.flatMap_cons, List.length_append, ih, List.length_append, double_length, double_length,
            List.length_cons]; omega
      simp only [griddefFile, List.length_append, fl, fm, double_length, List.length_singleton] at hl
      omega

/-! ### C86: `mir_make_matrix` -/

theorem get_matrixKey (o : List Char × List Char) (mat : List Char) (kwargs : Settings)
    (hk : ∀ x ∈ kwargs, x.1 ≠ matrixKey) : Settings.get ([o, (matrixKey, mat)] ++ kwargs) matrixKey = some mat := by
  unfold Settings.get
  rw [List.reverse_append, List.find?_append]
  have : kwargs.reverse.find? (fun x => x.1 == matrixKey) = none := by
    rw [List.find?_eq_none]
    intro x hx
    simpa using hk x (List.mem_reverse.1 hx)
  rw [this]
  simp

/-- What a caller expects: the weights MIR computed, at `output`, and no other file touched. -/
def Delivered (f f' : Files) (path ext : List Char) (b : Bytes) : Prop :=
  (∀ p, p ≠ path → p ≠ path ++ ".mat".toList → f' p = f p) ∧
    ((ext = ".mat".toList ∧ f' path = some (.bytes b)) ∨
      (ext = ".npz".toList ∧ f' (path ++ ".mat".toList) = none ∧ ∃ m, decode b = .ok m ∧ f' path = some (.npz m)))

theorem path_ne (path : List Char) : path ≠ path ++ ".mat".toList := fun h => by
  have := congrArg List.length h
  simp at this

/-- C86 for outputs given as a `Path`: the call succeeds iff MIR does and what it wrote can be decoded, and then the result is
at `output`, without a trace of the intermediate file; otherwise `output` is as it was. -/
theorem C86_path_partial (engine : Engine) (f : Files) (inp out : GridArg) (kwargs : Settings) (path ext : List Char)
    (hext : ext = ".mat".toList ∨ ext = ".npz".toList) (i o : List Char × List Char) (hi : gridSetting inp = .ok i)
    (ho : gridSetting out = .ok o) (hk : ∀ x ∈ kwargs, x.1 ≠ matrixKey) :
    let mat := if ext = ".npz".toList then path ++ ".mat".toList else path
    let r := makeMatrix engine f inp out kwargs (.path path ext)
    match engine ([o, (matrixKey, mat)] ++ kwargs) i.2 with
    | none => r = (.error .runtime, f)
    | some b =>
      (r.1 = .ok () ↔ ext = ".mat".toList ∨ ∃ m, decode b = .ok m) ∧ (r.1 = .ok () → Delivered f r.2 path ext b) ∧
        (r.1 ≠ .ok () → ∀ p, p ≠ path ++ ".mat".toList → r.2 p = f p) := by
  have hcond : ¬ (ext ≠ ".mat".toList ∧ ext ≠ ".npz".toList) := by
    rintro ⟨h1, h2⟩; rcases hext with h | h
    · exact h1 h
    · exact h2 h
  simp only [makeMatrix, if_neg hcond, hi, ho, runJob]
  cases he : engine ([o, (matrixKey, if ext = ".npz".toList then path ++ ".mat".toList else path)] ++ kwargs) i.2 with
  | none => rfl
  | some b =>
    simp only [get_matrixKey o _ kwargs hk]
    rcases hext with h | h
    · subst h
      have hn : ".mat".toList ≠ ".npz".toList := by decide
      have hfin : finish (f.set path (.bytes b)) path (.path path ".mat".toList) ".mat".toList =
          (.ok (), f.set path (.bytes b)) := by
        have hs : f.set path (.bytes b) path = some (.bytes b) := if_pos rfl
        simp only [finish, hs, if_neg hn]
      rw [if_neg hn, hfin]
      exact ⟨⟨fun _ => .inl rfl, fun _ => rfl⟩, fun _ => ⟨fun p hp _ => if_neg hp, .inl ⟨rfl, if_pos rfl⟩⟩, fun h => absurd rfl h⟩
    · subst h
      have hn : ".npz".toList ≠ ".mat".toList := by decide
      simp only [if_true, finish, Files.set, toFile, ne_eq, not_true_eq_false, if_false]
      cases hd : decode b with
      | error e =>
        refine ⟨⟨fun h => (by cases h), fun h => ?_⟩, fun h => (by cases h), fun _ p hp => if_neg hp⟩
        rcases h with h | ⟨m, hm⟩
        · exact absurd h hn
        · cases hm
      | ok m =>
        refine ⟨⟨fun _ => .inr ⟨m, rfl⟩, fun _ => rfl⟩, fun _ => ⟨?_, .inr ⟨rfl, ?_, m, hd, ?_⟩⟩, fun h => absurd rfl h⟩
        · intro p h1 h2
          simp only [Files.unlink, Files.set, if_neg h1, if_neg h2]
        · simp [Files.unlink]
        · simp only [Files.unlink, Files.set]
          rw [if_neg (path_ne path)]
          simp

/-- C86 and C54: a matrix cut short by MIR or by the disk never becomes an .npz file. -/
theorem C86_truncated (f : Files) (source : List Char) (target : Output) (m : MirMatrix) (hm : m.Wf) (k : Nat)
    (hk : k < m.file.length) (hs : f source = some (.bytes (m.file.take k))) :
    ∃ e, toFile f source target = (.error e, f) := by
  obtain ⟨e, he⟩ := C54_truncated m hm k hk
  cases target with
  | path p s =>
    by_cases h : s ≠ ".npz".toList
    · exact ⟨.value, by simp only [toFile, if_pos h]⟩
    · exact ⟨e, by simp only [toFile, if_neg h, hs, he]⟩
  | none => exact ⟨_, rfl⟩
  | str p s => exact ⟨_, rfl⟩

/-- C86 and C53: a whole one is converted exactly. -/
theorem C86_exact (f : Files) (source path : List Char) (m : MirMatrix) (hm : m.Wf)
    (hs : f source = some (.bytes m.file)) :
    toFile f source (.path path ".npz".toList) = (.ok (), f.set path (.npz ⟨m.rows, m.cols, m.outer, m.inner, m.data⟩)) := by
  have := C53_decodes m hm []
  rw [List.append_nil] at this
  simp only [toFile, hs, this]
  rfl

/-- C86 fails for outputs given as a string, as the signature allows for .mat: an .npz is never written, and the intermediate file
of a successful job is left behind. -/
theorem C86_str_refuted (engine : Engine) (f : Files) (inp out : GridArg) (kwargs : Settings) (path : List Char)
    (i o : List Char × List Char) (hi : gridSetting inp = .ok i) (ho : gridSetting out = .ok o)
    (hk : ∀ x ∈ kwargs, x.1 ≠ matrixKey) (b : Bytes)
    (he : engine ([o, (matrixKey, path ++ ".mat".toList)] ++ kwargs) i.2 = some b) :
    (makeMatrix engine f inp out kwargs (.str path ".npz".toList)).1 = .error .attribute ∧
    (makeMatrix engine f inp out kwargs (.str path ".npz".toList)).2 path = f path ∧
    (makeMatrix engine f inp out kwargs (.str path ".npz".toList)).2 (path ++ ".mat".toList) = some (.bytes b) := by
  have hn : ¬ (".npz".toList ≠ ".mat".toList ∧ ".npz".toList ≠ ".npz".toList) := by decide
  simp only [makeMatrix, if_neg hn, hi, ho, runJob, if_true, he, get_matrixKey o _ kwargs hk, finish, Files.set,
    toFile]
  exact ⟨trivial, by rw [if_neg (path_ne path)], trivial⟩

/-- C86 fails without an output: no call returns a matrix. -/
theorem C86_none_refuted (engine : Engine) (f : Files) (inp out : GridArg) (kwargs : Settings) :
    ∃ e, makeMatrix engine f inp out kwargs .none = (.error e, f) := by
  unfold makeMatrix
  simp only
  split
  · exact ⟨_, rfl⟩
  · exact ⟨_, rfl⟩

/-- C86: unless each grid is given either as a gridspec or as latitudes and longitudes, MIR is not run and no file changes. -/
theorem C86_arguments (engine : Engine) (f : Files) (inp out : GridArg) (kwargs : Settings) (output : Output)
    (h : (inp.grid.isSome ↔ inp.lat.isSome) ∨ inp.lat.isSome ≠ inp.lon.isSome ∨
      (out.grid.isSome ↔ out.lat.isSome) ∨ out.lat.isSome ≠ out.lon.isSome) :
    makeMatrix engine f inp out kwargs output = (.error .value, f) := by
  have key : ∀ a : GridArg, (a.grid.isSome ↔ a.lat.isSome) ∨ a.lat.isSome ≠ a.lon.isSome → gridSetting a = .error .value := by
    intro a ha
    obtain ⟨g, x, y⟩ := a
    cases g <;> cases x <;> cases y <;> simp at ha <;> rfl
  have : (gridSetting inp = .error .value) ∨ gridSetting out = .error .value := by
    rcases h with h | h | h | h
    · exact .inl (key inp (.inl h))
    · exact .inl (key inp (.inr h))
    · exact .inr (key out (.inl h))
    · exact .inr (key out (.inr h))
  unfold makeMatrix
  cases output with
  | none => rcases this with h | h <;> (rw [h]; try (cases gridSetting inp <;> rfl))
  | str p s =>
    simp only
    split
    · rfl
    · rcases this with h | h <;> (rw [h]; try (cases gridSetting inp <;> rfl))
  | path p s =>
    simp only
    split
    · rfl
    · rcases this with h | h <;> (rw [h]; try (cases gridSetting inp <;> rfl))

/-- The hypotheses of C86 can be met. -/
example : ∃ i o, gridSetting ⟨some "{grid: O32}".toList, none, none⟩ = .ok i ∧ gridSetting ⟨none, some ['a'], some ['b']⟩ = .ok o :=
  ⟨_, _, rfl, rfl⟩

/-! ### Examples -/

section
variable {d : Dir (List Char)}

/-- `C55_exact`: two points. -/
example : (writeGriddef d ['f'] [some 1, some 3] [some 2, some 4]).2 ['f'] = some (griddefFile [(1, 2), (3, 4)]) := by
  have h := (C55_exact d ['f'] [(1, 2), (3, 4)] (by simp) (by decide)).2
  simp only [List.map_cons, List.map_nil] at h
  rw [h]
  simp

/-- `C55_refused`: a longitude is missing. -/
example : writeGriddef d ['f'] [some 1, some 3] [some 2] = (.error .value, d) := C55_refused d ['f'] _ _ (.inl (by decide))
end

/-- Texts for the examples: a number is written in strokes, the digest is the text itself. -/
def strokes : Texts (List Char) where
  elem
    | none => "nan".toList
    | some u => 'I' :: List.replicate u.toNat 'I'
  full l := l.flatMap (fun _ => ['?'])
  edges _ _ := ['?']
  md5 := id

/-- Coordinates that are numbers. -/
def Known (c : Coord) : Prop := ∃ u, c = some u

theorem strokes_plain : strokes.Plain Known where
  inj := by
    rintro a b ⟨u, rfl⟩ ⟨v, rfl⟩ h
    have := congrArg List.length h
    simp [strokes] at this
    rw [UInt64.toNat_inj.1 this]
  clean := by
    rintro a ⟨u, rfl⟩ c hc
    have : c = 'I' := by
      simp only [strokes, List.mem_cons, List.mem_replicate] at hc
      rcases hc with h | h
      · exact h
      · exact h.2
    subst this
    decide
  nonempty := by rintro a ⟨u, rfl⟩; simp [strokes]

/-- `C56_lists_partial`: the name tells the points apart. -/
example : strokes.name (.list [some 1, some 3]) (.list [some 2, some 4]) ≠ strokes.name (.list [some 1, some 3]) (.list [some 2, some 5]) := fun h =>
  absurd (C56_lists_partial strokes Known strokes_plain (fun _ _ h => h) _ _ _ _ (by simp [Known]) (by simp [Known]) (by simp [Known]) (by simp [Known]) h).2
    (by decide)

theorem known_points (p : List (UInt64 × UInt64)) : ∀ x ∈ lats p ++ lons p, Known x := by
  intro x hx
  simp only [lats, lons, List.mem_append, List.mem_map] at hx
  rcases hx with ⟨a, -, rfl⟩ | ⟨a, -, rfl⟩ <;> exact ⟨_, rfl⟩

/-- `C85_content_partial`: after other points the file of these points is right. -/
example : ∃ n, (griddefFrom strokes (griddefRun strokes (fun _ => none) [(lats [(1, 2)], lons [(1, 2)]), (lats [(3, 4), (1, 2)], lons [(3, 4), (1, 2)])])
      (.list (lats [(1, 2), (3, 4)])) (.list (lons [(1, 2), (3, 4)]))).1 = .ok n ∧
    (griddefFrom strokes (griddefRun strokes (fun _ => none) [(lats [(1, 2)], lons [(1, 2)]), (lats [(3, 4), (1, 2)], lons [(3, 4), (1, 2)])])
      (.list (lats [(1, 2), (3, 4)])) (.list (lons [(1, 2), (3, 4)]))).2 n = some (griddefFile [(1, 2), (3, 4)]) :=
  C85_content_partial strokes Known strokes_plain (fun _ _ h => h) [[(1, 2)], [(3, 4), (1, 2)]]
    (fun p hp => ⟨by rintro rfl; simp at hp, by simp at hp; rcases hp with rfl | rfl <;> decide, known_points p⟩) [(1, 2), (3, 4)]
    ⟨by simp, by decide, known_points _⟩

theorem strokes_plain_all : strokes.Plain (fun _ => True) where
  inj := by
    intro a b _ _ h
    cases a with
    | none =>
      cases b with
      | none => rfl
      | some v => exact absurd (congrArg List.head? h) (by simp [strokes])
    | some u =>
      cases b with
      | none => exact absurd (congrArg List.head? h) (by simp [strokes])
      | some v => exact strokes_plain.inj _ _ ⟨u, rfl⟩ ⟨v, rfl⟩ h
  clean := by
    intro a _
    cases a with
    | none => simp [strokes]
    | some u => exact strokes_plain.clean _ ⟨u, rfl⟩
  nonempty := by
    intro a _
    cases a with
    | none => simp [strokes]
    | some u => exact strokes_plain.nonempty _ ⟨u, rfl⟩

/-- `C85_exceptions_partial`: after a call that raised on its third point, and one with lists of different lengths. -/
example : ∃ n, (griddefFrom strokes (griddefRun strokes (fun _ => none) [([some 1, some 3, none], [some 2, some 4, none]), ([some 1], [])])
      (.list (lats [(1, 2), (3, 4)])) (.list (lons [(1, 2), (3, 4)]))).1 = .ok n ∧
    (griddefFrom strokes (griddefRun strokes (fun _ => none) [([some 1, some 3, none], [some 2, some 4, none]), ([some 1], [])])
      (.list (lats [(1, 2), (3, 4)])) (.list (lons [(1, 2), (3, 4)]))).2 n = some (griddefFile [(1, 2), (3, 4)]) :=
  C85_exceptions_partial strokes (fun _ => True) strokes_plain_all (fun _ _ h => h) _ (fun _ _ _ _ => trivial) [(1, 2), (3, 4)]
    ⟨by simp, by decide, fun _ _ => trivial⟩

/-- `C86_path_partial`: an engine that writes a good file. -/
example (f : Files) (p : List Char) :
    (makeMatrix (fun _ _ => some goodFile.file) f ⟨some "{grid: O32}".toList, none, none⟩ ⟨none, some ['a'], some ['b']⟩ [] (.path p ".npz".toList)).1 =
      .ok () := by
  have h := C86_path_partial (fun _ _ => some goodFile.file) f ⟨some "{grid: O32}".toList, none, none⟩ ⟨none, some ['a'], some ['b']⟩ [] p
    ".npz".toList (.inr rfl) _ _ rfl rfl (by simp)
  exact h.1.2 (.inr ⟨_, by simpa using C53_decodes goodFile goodFile_wf []⟩)

/-- `C86_truncated`, `C86_exact`: a file cut short, and a whole one. -/
example (f : Files) (p : List Char) : (∃ e, toFile (f.set ['s'] (.bytes (goodFile.file.take 9))) ['s'] (.path p ".npz".toList) =
      (.error e, f.set ['s'] (.bytes (goodFile.file.take 9)))) ∧
    (toFile (f.set ['s'] (.bytes goodFile.file)) ['s'] (.path p ".npz".toList)).1 = .ok () :=
  ⟨C86_truncated _ _ _ goodFile goodFile_wf 9 (by decide +kernel) (by simp [Files.set]),
    congrArg Prod.fst (C86_exact _ ['s'] p goodFile goodFile_wf (by simp [Files.set]))⟩

end Verif.Mir
