import Verif.Json.Dates
import Verif.Json.Props

/-!
Property theorems about dates in the arguments of a disk-cache request (C147).
-/

namespace Verif.Json.Dates

/-! ### Specification -/

/-- `v` is the value `a` or a part of it. -/
inductive Within : P → P → Prop
  | self (a : P) : Within a a
  | list {v x : P} {xs : List P} : x ∈ xs → Within v x → Within v (.list xs)
  | tuple {v x : P} {xs : List P} : x ∈ xs → Within v x → Within v (.tuple xs)
  | obj {v x : P} {k : List Char} {fs : List (List Char × P)} : (k, x) ∈ fs → Within v x → Within v (.obj fs)

/-- Values that json does not know by itself. -/
def Foreign : P → Prop
  | .moment _ | .index _ | .other => True
  | _ => False

/-- The elements of a list, a tuple or an index of times. -/
inductive Items : P → List P → Prop
  | list (xs : List P) : Items (.list xs) xs
  | tuple (xs : List P) : Items (.tuple xs) xs
  | index (ts : List Time) : Items (.index ts) (ts.map fun t => .moment (.time t))

mutual
/-- The same value: the kind of sequence and the order of dict items do not matter, everything else does. A date is the
same as no text. -/
inductive PEq : P → P → Prop
  | null : PEq .null .null
  | bool (b : Bool) : PEq (.bool b) (.bool b)
  | int (i : Int) : PEq (.int i) (.int i)
  | float (r : List Char) : PEq (.float r) (.float r)
  | str (s : List Char) : PEq (.str s) (.str s)
  | moment (m : Moment) : PEq (.moment m) (.moment m)
  | seq {a b : P} {xs ys : List P} : Items a xs → Items b ys → PEqL xs ys → PEq a b
  | obj {fs gs hs : List (List Char × P)} : fs.Perm gs → PEqF gs hs → PEq (.obj fs) (.obj hs)
inductive PEqL : List P → List P → Prop
  | nil : PEqL [] []
  | cons {x y xs ys} : PEq x y → PEqL xs ys → PEqL (x :: xs) (y :: ys)
inductive PEqF : List (List Char × P) → List (List Char × P) → Prop
  | nil : PEqF [] []
  | cons {k v w fs gs} : PEq v w → PEqF fs gs → PEqF ((k, v) :: fs) ((k, w) :: gs)
end

/-- One part of a value is in order: the keys of a dict are distinct, the text of a float is one, and a text is not the
ISO text of a date or time. -/
def Fine : P → Prop
  | .float r => FloatRepr r
  | .obj fs => (fs.map Prod.fst).Nodup
  | .str s => ∀ m : Moment, s ≠ m.iso
  | _ => True

/-- Requests as in C59 (owner without a dash, list-like or dict arguments), every part of the arguments in order. -/
structure DateReq.Ok (r : DateReq) : Prop where
  owner : '-' ∉ asciiLower r.owner
  args : ∀ v, Within v r.args → Fine v
  known : ¬ Within .other r.args
  argsListLike : (∃ xs, Items r.args xs) ∨ (∃ fs, r.args = .obj fs)
  extra : WF r.hashExtra

/-! ### ISO texts -/

theorem digit_eq {a b : Nat} (h : digit a = digit b) : a % 10 = b % 10 :=
  digit_inj _ (Nat.mod_lt _ (by decide)) _ (Nat.mod_lt _ (by decide)) h

theorem pad2_inj {a b : Nat} (ha : a < 100) (hb : b < 100) (h : pad2 a = pad2 b) : a = b := by
  simp only [pad2, List.cons.injEq, and_true] at h
  have h1 := digit_eq h.1
  have h2 := digit_eq h.2
  omega

theorem pad4_inj {a b : Nat} (ha : a < 10000) (hb : b < 10000) (h : pad4 a = pad4 b) : a = b := by
  simp only [pad4, List.cons.injEq, and_true] at h
  have h1 := digit_eq h.1
  have h2 := digit_eq h.2.1
  have h3 := digit_eq h.2.2.1
  have h4 := digit_eq h.2.2.2
  omega

theorem pad6_inj {a b : Nat} (ha : a < 1000000) (hb : b < 1000000) (h : pad6 a = pad6 b) : a = b := by
  simp only [pad6, List.cons.injEq, and_true] at h
  have h1 := digit_eq h.1
  have h2 := digit_eq h.2.1
  have h3 := digit_eq h.2.2.1
  have h4 := digit_eq h.2.2.2.1
  have h5 := digit_eq h.2.2.2.2.1
  have h6 := digit_eq h.2.2.2.2.2
  omega

theorem pad2_len (n : Nat) : (pad2 n).length = 2 := rfl
theorem pad4_len (n : Nat) : (pad4 n).length = 4 := rfl
theorem pad6_len (n : Nat) : (pad6 n).length = 6 := rfl

theorem pad2_app {a b : Nat} {x y : List Char} (ha : a < 100) (hb : b < 100) (h : pad2 a ++ x = pad2 b ++ y) :
    a = b ∧ x = y := by
  obtain ⟨h1, h2⟩ := List.append_inj h rfl
  exact ⟨pad2_inj ha hb h1, h2⟩

theorem day_iso_app {a b : Day} {x y : List Char} (h : a.iso ++ x = b.iso ++ y) : a = b ∧ x = y := by
  obtain ⟨h0, hx⟩ := List.append_inj h rfl
  obtain ⟨ya, ma, da, hya, hma, hda⟩ := a
  obtain ⟨yb, mb, db, hyb, hmb, hdb⟩ := b
  simp only [Day.iso] at h0
  obtain ⟨h1, h2⟩ := List.append_inj h0 rfl
  have e1 := pad4_inj (by omega) (by omega) h1
  simp only [List.cons.injEq, true_and] at h2
  obtain ⟨e2, h3⟩ := pad2_app (by omega) (by omega) h2
  simp only [List.cons.injEq, true_and] at h3
  have e3 := pad2_inj (by omega) (by omega) h3
  subst e1 e2 e3
  exact ⟨rfl, hx⟩

theorem frac_inj {u v : Nat} (hu : u < 1000000) (hv : v < 1000000) (h : frac u = frac v) : u = v := by
  simp only [frac] at h
  split_ifs at h with h1 h2 h2
  · omega
  · simp only [List.cons.injEq, true_and] at h
    exact pad6_inj hu hv h

theorem offset_inj {o p : Int} (ho : o.natAbs < 86400000000) (hp : p.natAbs < 86400000000)
    (h : offset o = offset p) : o = p := by
  simp only [offset, List.cons.injEq] at h
  obtain ⟨hs, h⟩ := h
  have hsign : (o < 0) = (p < 0) := by
    split_ifs at hs with h1 h2 h2
    · simp [h1, h2]
    · exact absurd hs (by decide)
    · exact absurd hs (by decide)
    · simp [h1, h2]
  obtain ⟨e1, h⟩ := pad2_app (by omega) (by omega) h
  simp only [List.cons.injEq, true_and] at h
  obtain ⟨e2, h⟩ := pad2_app (by omega) (by omega) h
  have e3 : o.natAbs % 60000000 = p.natAbs % 60000000 := by
    split_ifs at h with h1 h2 h2
    · omega
    · simp only [List.cons.injEq, true_and] at h
      obtain ⟨e3, h⟩ := pad2_app (by omega) (by omega) h
      have e4 := frac_inj (by omega) (by omega) h
      omega
  have hneg : (o < 0 ↔ p < 0) := by rw [hsign]
  omega

theorem tail_inj {u v : Nat} (hu : u < 1000000) (hv : v < 1000000)
    {z w : Option {o : Int // o.natAbs < 86400000000}} (h : frac u ++ zoneText z = frac v ++ zoneText w) :
    u = v ∧ z = w := by
  have hz : ∀ (z : Option {o : Int // o.natAbs < 86400000000}) (c : List Char), zoneText z ≠ '.' :: c := by
    intro z c
    cases z with
    | none => simp [zoneText]
    | some o =>
      simp only [zoneText, offset]
      split_ifs <;> simp
  have hzz : ∀ z w : Option {o : Int // o.natAbs < 86400000000}, zoneText z = zoneText w → z = w := by
    intro z w h
    cases z <;> cases w
    · rfl
    · simp [zoneText, offset] at h
    · simp [zoneText, offset] at h
    · rename_i o p
      exact congrArg some (Subtype.ext (offset_inj o.2 p.2 h))
  simp only [frac] at h
  split_ifs at h with h1 h2 h2
  · exact ⟨by omega, hzz _ _ h⟩
  · exact absurd h (hz _ _)
  · exact absurd h.symm (hz _ _)
  · simp only [List.cons_append, List.cons.injEq, true_and] at h
    obtain ⟨h3, h4⟩ := List.append_inj h rfl
    exact ⟨pad6_inj hu hv h3, hzz _ _ h4⟩

theorem time_iso_inj {a b : Time} (h : a.iso = b.iso) : a = b := by
  obtain ⟨da, ha, ma, sa, ua, za⟩ := a
  obtain ⟨db, hb, mb, sb, ub, zb⟩ := b
  simp only [Time.iso] at h
  obtain ⟨e0, h⟩ := day_iso_app h
  simp only [List.cons.injEq, true_and] at h
  obtain ⟨e1, h⟩ := pad2_app (by omega) (by omega) h
  simp only [List.cons.injEq, true_and] at h
  obtain ⟨e2, h⟩ := pad2_app (by omega) (by omega) h
  simp only [List.cons.injEq, true_and] at h
  obtain ⟨e3, h⟩ := pad2_app (by omega) (by omega) h
  obtain ⟨e4, e5⟩ := tail_inj ua.2 ub.2 h
  have e1 := Fin.ext e1
  have e2 := Fin.ext e2
  have e3 := Fin.ext e3
  have e4 := Fin.ext e4
  subst e0 e1 e2 e3 e4 e5
  rfl

theorem iso_inj {a b : Moment} (h : a.iso = b.iso) : a = b := by
  cases a with
  | date d =>
    cases b with
    | date e =>
      have h : d.iso ++ [] = e.iso ++ [] := by simpa [Moment.iso] using h
      rw [(day_iso_app h).1]
    | time t =>
      simp only [Moment.iso, Time.iso] at h
      rw [← List.append_nil d.iso] at h
      exact absurd (day_iso_app h).2 (by simp)
  | time s =>
    cases b with
    | date e =>
      simp only [Moment.iso, Time.iso] at h
      rw [← List.append_nil e.iso] at h
      exact absurd (day_iso_app h).2 (by simp)
    | time t => exact congrArg _ (time_iso_inj h)

/-! ### the value written -/

mutual
/-- The written value, where there is one. -/
def enc : P → J
  | .null => .null
  | .bool b => .bool b
  | .int i => .int i
  | .float r => .float r
  | .str s => .str s
  | .list xs => .list (encL xs)
  | .tuple xs => .tuple (encL xs)
  | .obj fs => .obj (encF fs)
  | .moment m => .str m.iso
  | .index ts => .list (ts.map fun t => .str t.iso)
  | .other => .null
def encL : List P → List J
  | [] => []
  | x :: xs => enc x :: encL xs
def encF : List (List Char × P) → List (List Char × J)
  | [] => []
  | (k, x) :: fs => (k, enc x) :: encF fs
end

/-- A part that cannot be written. -/
def Bad (pandas : Bool) : P → Prop
  | .other => True
  | .moment _ | .index _ => pandas = false
  | _ => False

/-- The exception, if there is one. -/
def errOf (pandas : Bool) : Err := if pandas then .typeError else .noPandas

mutual
theorem ser_spec (p : Bool) : ∀ a : P, (∃ v, Within v a ∧ Bad p v) ∧ serialise p a = .error (errOf p) ∨
    (∀ v, Within v a → ¬ Bad p v) ∧ serialise p a = .ok (enc a)
  | .null => Or.inr ⟨fun v h => (by cases h; exact id), rfl⟩
  | .bool _ => Or.inr ⟨fun v h => (by cases h; exact id), rfl⟩
  | .int _ => Or.inr ⟨fun v h => (by cases h; exact id), rfl⟩
  | .float _ => Or.inr ⟨fun v h => (by cases h; exact id), rfl⟩
  | .str _ => Or.inr ⟨fun v h => (by cases h; exact id), rfl⟩
  | .list xs => by
    rcases serL_spec p xs with ⟨⟨x, hx, v, hv, hb⟩, e⟩ | ⟨hn, e⟩
    · exact Or.inl ⟨⟨v, .list hx hv, hb⟩, by simp [serialise, e, Except.map]⟩
    · refine Or.inr ⟨fun v h => ?_, by simp [serialise, e, Except.map, enc]⟩
      cases h with
      | self => exact id
      | list hx h => exact hn _ hx _ h
  | .tuple xs => by
    rcases serL_spec p xs with ⟨⟨x, hx, v, hv, hb⟩, e⟩ | ⟨hn, e⟩
    · exact Or.inl ⟨⟨v, .tuple hx hv, hb⟩, by simp [serialise, e, Except.map]⟩
    · refine Or.inr ⟨fun v h => ?_, by simp [serialise, e, Except.map, enc]⟩
      cases h with
      | self => exact id
      | tuple hx h => exact hn _ hx _ h
  | .obj fs => by
    rcases serF_spec p fs with ⟨⟨x, hx, v, hv, hb⟩, e⟩ | ⟨hn, e⟩
    · exact Or.inl ⟨⟨v, .obj hx hv, hb⟩, by simp [serialise, e, Except.map]⟩
    · refine Or.inr ⟨fun v h => ?_, by simp [serialise, e, Except.map, enc]⟩
      cases h with
      | self => exact id
      | obj hx h => exact hn _ hx _ h
  | .moment m => by
    cases p with
    | false => exact Or.inl ⟨⟨_, .self _, rfl⟩, rfl⟩
    | true => exact Or.inr ⟨fun v h => (by cases h; exact Bool.noConfusion), rfl⟩
  | .index ts => by
    cases p with
    | false => exact Or.inl ⟨⟨_, .self _, rfl⟩, rfl⟩
    | true => exact Or.inr ⟨fun v h => (by cases h; exact Bool.noConfusion), rfl⟩
  | .other => Or.inl ⟨⟨_, .self _, trivial⟩, by cases p <;> rfl⟩
theorem serL_spec (p : Bool) : ∀ xs : List P,
    (∃ x ∈ xs, ∃ v, Within v x ∧ Bad p v) ∧ serialiseL p xs = .error (errOf p) ∨
    (∀ x ∈ xs, ∀ v, Within v x → ¬ Bad p v) ∧ serialiseL p xs = .ok (encL xs)
  | [] => Or.inr ⟨fun _ h => absurd h (by simp), rfl⟩
  | x :: xs => by
    rcases ser_spec p x with ⟨⟨v, hv, hb⟩, e⟩ | ⟨hn, e⟩
    · exact Or.inl ⟨⟨x, by simp, v, hv, hb⟩, by simp [serialiseL, e]⟩
    · rcases serL_spec p xs with ⟨⟨y, hy, v, hv, hb⟩, e'⟩ | ⟨hn', e'⟩
      · exact Or.inl ⟨⟨y, by simp [hy], v, hv, hb⟩, by simp [serialiseL, e, e']⟩
      · refine Or.inr ⟨fun y hy => ?_, by simp [serialiseL, e, e', encL]⟩
        rcases List.mem_cons.1 hy with rfl | hy
        · exact hn
        · exact hn' y hy
theorem serF_spec (p : Bool) : ∀ fs : List (List Char × P),
    (∃ f, f ∈ fs ∧ ∃ v, Within v f.2 ∧ Bad p v) ∧ serialiseF p fs = .error (errOf p) ∨
    (∀ f, f ∈ fs → ∀ v, Within v f.2 → ¬ Bad p v) ∧ serialiseF p fs = .ok (encF fs)
  | [] => Or.inr ⟨fun _ h => absurd h (by simp), rfl⟩
  | (k, x) :: xs => by
    rcases ser_spec p x with ⟨⟨v, hv, hb⟩, e⟩ | ⟨hn, e⟩
    · exact Or.inl ⟨⟨(k, x), by simp, v, hv, hb⟩, by simp [serialiseF, e]⟩
    · rcases serF_spec p xs with ⟨⟨y, hy, v, hv, hb⟩, e'⟩ | ⟨hn', e'⟩
      · exact Or.inl ⟨⟨y, by simp [hy], v, hv, hb⟩, by simp [serialiseF, e, e']⟩
      · refine Or.inr ⟨fun y hy => ?_, by simp [serialiseF, e, e', encF]⟩
        rcases List.mem_cons.1 hy with rfl | hy
        · exact hn
        · exact hn' y hy
end

/-! ### the same value is written for the same value -/

theorem encF_eq (fs : List (List Char × P)) : encF fs = fs.map fun f => (f.1, enc f.2) := by
  induction fs with
  | nil => rfl
  | cons f fs ih => obtain ⟨k, v⟩ := f; simp [encF, ih]

theorem encL_eq (xs : List P) : encL xs = xs.map enc := by
  induction xs with
  | nil => rfl
  | cons x xs ih => simp [encL, ih]

theorem enc_items {a : P} {xs : List P} (h : Items a xs) : enc a = .list (encL xs) ∨ enc a = .tuple (encL xs) := by
  cases h with
  | list xs => exact Or.inl rfl
  | tuple xs => exact Or.inr rfl
  | index ts =>
    refine Or.inl ?_
    rw [encL_eq, List.map_map]
    rfl

mutual
theorem jeq_of_peq : ∀ {a b : P}, PEq a b → JEq (enc a) (enc b)
  | _, _, .null => .null
  | _, _, .bool _ => .bool _
  | _, _, .int _ => .int _
  | _, _, .float _ => .float _
  | _, _, .str _ => .str _
  | _, _, .moment m => .str _
  | _, _, .seq h1 h2 h => by
    have h := jeqL_of_peq h
    rcases enc_items h1 with e1 | e1 <;> rcases enc_items h2 with e2 | e2 <;> rw [e1, e2]
    · exact .ll h
    · exact .lt h
    · exact .tl h
    · exact .tt h
  | _, _, .obj (fs := fs) (gs := gs) hp h => by
    refine .obj (gs := encF gs) ?_ (jeqF_of_peq h)
    rw [encF_eq, encF_eq]
    exact hp.map _
theorem jeqL_of_peq : ∀ {a b : List P}, PEqL a b → JEqL (encL a) (encL b)
  | _, _, .nil => .nil
  | _, _, .cons h1 h2 => .cons (jeq_of_peq h1) (jeqL_of_peq h2)
theorem jeqF_of_peq : ∀ {a b : List (List Char × P)}, PEqF a b → JEqF (encF a) (encF b)
  | _, _, .nil => .nil
  | _, _, .cons h1 h2 => .cons (jeq_of_peq h1) (jeqF_of_peq h2)
end

theorem perm_map_pull {α β : Type} (f : α → β) (l : List α) (m : List β) (h : (l.map f).Perm m) :
    ∃ g : List α, l.Perm g ∧ g.map f = m := by
  induction m generalizing l with
  | nil =>
    have : l = [] := by simpa using h.length_eq
    exact ⟨[], by simp [this], rfl⟩
  | cons b m ih =>
    have hb : b ∈ l.map f := h.symm.subset (by simp)
    obtain ⟨a, ha, hab⟩ := List.mem_map.1 hb
    obtain ⟨l1, l2, rfl⟩ := List.append_of_mem ha
    have h' : ((l1 ++ l2).map f).Perm m := by
      have e1 : (l1 ++ a :: l2).Perm (a :: (l1 ++ l2)) := List.perm_middle
      have e2 := (e1.map f).symm.trans h
      simp only [List.map_cons, hab] at e2
      exact (List.perm_cons _).1 e2
    obtain ⟨g, hg, hgm⟩ := ih _ h'
    exact ⟨a :: g, List.perm_middle.trans (List.Perm.cons a hg), by simp [hab, hgm]⟩

/-- Fine and without strange parts. -/
def Plain (a : P) : Prop := ∀ v, Within v a → Fine v ∧ ¬ Bad true v

theorem Plain.items {a : P} {xs : List P} (h : Plain a) (hi : Items a xs) : ∀ x ∈ xs, Plain x := by
  intro x hx v hv
  cases hi with
  | list xs => exact h v (.list hx hv)
  | tuple xs => exact h v (.tuple hx hv)
  | index ts =>
    obtain ⟨t, _, rfl⟩ := List.mem_map.1 hx
    cases hv
    exact ⟨trivial, by simp [Bad]⟩

theorem index_peqL (ts : List Time) : ∀ (xs : List P), JEqL (encL xs) (ts.map fun t => J.str t.iso) →
    (∀ x ∈ xs, Plain x) → PEqL xs (ts.map fun t => .moment (.time t)) := by
  induction ts with
  | nil =>
    intro xs h _
    cases xs with
    | nil => exact .nil
    | cons x xs => simp only [encL, List.map_nil] at h; cases h
  | cons t ts ih =>
    intro xs h hp
    cases xs with
    | nil => simp only [encL, List.map_cons] at h; cases h
    | cons x xs =>
      simp only [encL, List.map_cons] at h
      cases h with
      | cons h1 h2 =>
        refine .cons ?_ (ih xs h2 fun y hy => hp y (by simp [hy]))
        have hx := hp x (by simp)
        cases x <;> simp only [enc] at h1
        case str s =>
          generalize hs : t.iso = u at h1
          cases h1
          exact absurd hs.symm ((hx _ (.self _)).1 (.time t))
        case moment m =>
          generalize hs : t.iso = u at h1
          generalize hm : m.iso = w at h1
          cases h1
          have : m = .time t := iso_inj (hm.trans hs.symm)
          rw [this]
          exact .moment _
        all_goals cases h1

theorem jeq_seq_inv {a : P} {j : J} {ys : List J} (h : JEq (enc a) j) (hj : j = .list ys ∨ j = .tuple ys) :
    ∃ xs, Items a xs ∧ JEqL (encL xs) ys := by
  cases a
  case list xs =>
    refine ⟨xs, .list xs, ?_⟩
    rcases hj with rfl | rfl <;> (simp only [enc] at h; cases h; assumption)
  case tuple xs =>
    refine ⟨xs, .tuple xs, ?_⟩
    rcases hj with rfl | rfl <;> (simp only [enc] at h; cases h; assumption)
  case index ts =>
    refine ⟨_, .index ts, ?_⟩
    have e : encL (ts.map fun t => P.moment (.time t)) = ts.map fun t => J.str t.iso := by
      rw [encL_eq, List.map_map]; rfl
    rw [e]
    rcases hj with rfl | rfl <;> (simp only [enc] at h; cases h; assumption)
  all_goals (rcases hj with rfl | rfl <;> (simp only [enc] at h; cases h))

mutual
theorem peq_of_jeq : ∀ (b a : P), JEq (enc a) (enc b) → Plain a → Plain b → PEq a b
  | .null, a, h, ha, _ => by
    cases a <;> simp only [enc] at h
    case null => exact .null
    case other => exact absurd trivial (ha _ (.self _)).2
    all_goals cases h
  | .bool _, a, h, _, _ => by
    cases a <;> simp only [enc] at h <;> cases h
    exact .bool _
  | .int _, a, h, _, _ => by
    cases a <;> simp only [enc] at h <;> cases h
    exact .int _
  | .float _, a, h, _, _ => by
    cases a <;> simp only [enc] at h <;> cases h
    exact .float _
  | .str s, a, h, ha, hb => by
    cases a <;> simp only [enc] at h
    case str => cases h; exact .str _
    case moment d =>
      generalize hm : d.iso = w at h
      cases h
      exact absurd hm.symm ((hb _ (.self _)).1 d)
    all_goals cases h
  | .list ys, a, h, ha, hb => by
    obtain ⟨xs, hi, hl⟩ := jeq_seq_inv h (Or.inl rfl)
    exact .seq hi (.list ys) (peqL_of_jeq ys xs hl (ha.items hi) (hb.items (.list ys)))
  | .tuple ys, a, h, ha, hb => by
    obtain ⟨xs, hi, hl⟩ := jeq_seq_inv h (Or.inr rfl)
    exact .seq hi (.tuple ys) (peqL_of_jeq ys xs hl (ha.items hi) (hb.items (.tuple ys)))
  | .obj hs, a, h, ha, hb => by
    cases a <;> simp only [enc] at h
    case obj fs =>
      cases h with
      | obj hp hf =>
        rw [encF_eq] at hp
        obtain ⟨g, hg, rfl⟩ := perm_map_pull _ _ _ hp
        refine .obj hg (peqF_of_jeq hs g (by rw [encF_eq g]; exact hf) ?_ ?_)
        · intro f hfm v hv
          exact ha v (.obj (k := f.1) (hg.symm.subset hfm) hv)
        · intro f hfm v hv
          exact hb v (.obj (k := f.1) hfm hv)
    all_goals cases h
  | .moment m, a, h, ha, _ => by
    cases a <;> simp only [enc] at h
    case str s =>
      generalize hm : m.iso = w at h
      cases h
      exact absurd hm.symm ((ha _ (.self _)).1 m)
    case moment m' =>
      generalize hm : m.iso = w at h
      generalize hm' : m'.iso = w' at h
      cases h
      have : m' = m := iso_inj (hm'.trans hm.symm)
      rw [this]
      exact .moment _
    all_goals cases h
  | .index ts, a, h, ha, hb => by
    obtain ⟨xs, hi, hl⟩ := jeq_seq_inv h (Or.inl rfl)
    exact .seq hi (.index ts) (index_peqL ts xs hl (ha.items hi))
  | .other, _, _, _, hb => absurd trivial (hb _ (.self _)).2
theorem peqL_of_jeq : ∀ (b a : List P), JEqL (encL a) (encL b) → (∀ x ∈ a, Plain x) → (∀ x ∈ b, Plain x) → PEqL a b
  | [], a, h, _, _ => by
    cases a with
    | nil => exact .nil
    | cons x xs => simp only [encL] at h; cases h
  | y :: ys, a, h, ha, hb => by
    cases a with
    | nil => simp only [encL] at h; cases h
    | cons x xs =>
      simp only [encL] at h
      cases h with
      | cons h1 h2 =>
        exact .cons (peq_of_jeq y x h1 (ha x (by simp)) (hb y (by simp)))
          (peqL_of_jeq ys xs h2 (fun z hz => ha z (by simp [hz])) (fun z hz => hb z (by simp [hz])))
theorem peqF_of_jeq : ∀ (b a : List (List Char × P)), JEqF (encF a) (encF b) → (∀ f, f ∈ a → Plain f.2) →
    (∀ f, f ∈ b → Plain f.2) → PEqF a b
  | [], a, h, _, _ => by
    cases a with
    | nil => exact .nil
    | cons f fs => obtain ⟨k, v⟩ := f; simp only [encF] at h; cases h
  | (k, w) :: gs, a, h, ha, hb => by
    cases a with
    | nil => simp only [encF] at h; cases h
    | cons f fs =>
      obtain ⟨k', v⟩ := f
      simp only [encF] at h
      cases h with
      | cons h1 h2 =>
        exact .cons (peq_of_jeq w v h1 (ha (k, v) (by simp)) (hb (k, w) (by simp)))
          (peqF_of_jeq gs fs h2 (fun z hz => ha z (by simp [hz])) (fun z hz => hb z (by simp [hz])))
end

mutual
theorem wf_enc : ∀ a : P, Plain a → WF (enc a)
  | .null, _ => trivial
  | .bool _, _ => trivial
  | .int _, _ => trivial
  | .float _, h => (h _ (.self _)).1
  | .str _, _ => trivial
  | .list xs, h => wf_encL xs (h.items (.list xs))
  | .tuple xs, h => wf_encL xs (h.items (.tuple xs))
  | .obj fs, h => by
    refine ⟨?_, wf_encF fs fun f hf v hv => h v (.obj (k := f.1) hf hv)⟩
    have := (h _ (.self _)).1
    rw [encF_eq, List.map_map]
    exact this
  | .moment _, _ => trivial
  | .index ts, _ => by
    show WFL _
    induction ts with
    | nil => trivial
    | cons t ts ih => exact ⟨trivial, ih (fun v hv => (by cases hv; exact ⟨trivial, by simp [Bad]⟩))⟩
  | .other, _ => trivial
theorem wf_encL : ∀ xs : List P, (∀ x ∈ xs, Plain x) → WFL (encL xs)
  | [], _ => trivial
  | x :: xs, h => ⟨wf_enc x (h x (by simp)), wf_encL xs fun y hy => h y (by simp [hy])⟩
theorem wf_encF : ∀ fs : List (List Char × P), (∀ f, f ∈ fs → Plain f.2) → WFF (encF fs)
  | [], _ => trivial
  | (k, x) :: fs, h => ⟨wf_enc x (h (k, x) (by simp)), wf_encF fs fun y hy => h y (by simp [hy])⟩
end

theorem DateReq.Ok.plain {r : DateReq} (h : r.Ok) : Plain r.args := by
  intro v hv
  refine ⟨h.args v hv, fun hb => ?_⟩
  cases v <;> simp only [Bad] at hb
  · cases hb
  · cases hb
  · exact h.known hv

/-! ### the claims -/

/-- The request with the arguments as they are written. -/
def DateReq.written (r : DateReq) (a : J) : FileReq := ⟨r.owner, a, r.hashExtra, r.extension⟩

theorem ser_ok {r : DateReq} (h : r.Ok) : serialise true r.args = .ok (enc r.args) := by
  rcases ser_spec true r.args with ⟨⟨v, hv, hb⟩, _⟩ | ⟨_, e⟩
  · exact absurd hb (h.plain v hv).2
  · exact e

theorem DateReq.Ok.file {r : DateReq} (h : r.Ok) : (r.written (enc r.args)).Ok where
  owner := h.owner
  args := wf_enc _ h.plain
  argsListLike := by
    rcases h.argsListLike with ⟨xs, hi⟩ | ⟨fs, e⟩
    · rcases enc_items hi with e | e
      · exact Or.inl ⟨_, e⟩
      · exact Or.inr (Or.inl ⟨_, e⟩)
    · exact Or.inr (Or.inr ⟨encF fs, by show enc r.args = _; rw [e]; rfl⟩)
  extra := h.extra

/-- C147, where pandas is installed and no text reads like a date: two requests get the same file iff owner, arguments
(dates and times included), extra hash data and extension are the same. The digest has a fixed length and does not
collide on the two hashed texts.
Missing from the full statement: installations without pandas and texts that read like a date (`C147_refuted`). -/
theorem C147_same_file_iff_same_dates_partial (sha : List Char → List Char) (r r' : DateReq) (h : r.Ok) (h' : r'.Ok)
    (hs : ∀ a a', serialise true r.args = .ok a → serialise true r'.args = .ok a' →
      (sha (hashed (r.written a))).length = (sha (hashed (r'.written a'))).length ∧
      NoCollision sha (hashed (r.written a)) (hashed (r'.written a'))) :
    (∃ n, nameOf true asciiLower sha r = .ok n ∧ nameOf true asciiLower sha r' = .ok n) ↔
      r.owner = r'.owner ∧ PEq r.args r'.args ∧ JEq r.hashExtra r'.hashExtra ∧ r.extension = r'.extension := by
  have hc := hs _ _ (ser_ok h) (ser_ok h')
  have hf := C59_same_file_iff_same_request sha _ _ h.file h'.file hc.1 hc.2
  simp only [nameOf, ser_ok h, ser_ok h', Except.map]
  constructor
  · rintro ⟨n, h1, h2⟩
    have e : fileName asciiLower sha (r.written (enc r.args)) = fileName asciiLower sha (r'.written (enc r'.args)) :=
      (Except.ok.inj h1).trans (Except.ok.inj h2).symm
    obtain ⟨a, b, c, d⟩ := hf.1 e
    exact ⟨a, peq_of_jeq _ _ b h.plain h'.plain, c, d⟩
  · rintro ⟨a, b, c, d⟩
    have e := hf.2 ⟨a, jeq_of_peq b, c, d⟩
    exact ⟨_, rfl, congrArg Except.ok e.symm⟩

/-- C147: without pandas a request fails iff some part of its arguments is unknown to json, dates included; with pandas
iff some part is neither a date, a time nor an index of times. -/
theorem C147_errors (pandas : Bool) (lower sha : List Char → List Char) (r : DateReq) (e : Err) :
    nameOf pandas lower sha r = .error e ↔
      (pandas = false ∧ e = .noPandas ∧ ∃ v, Within v r.args ∧ Foreign v) ∨
      (pandas = true ∧ e = .typeError ∧ Within .other r.args) := by
  have hb : (∃ v, Within v r.args ∧ Bad pandas v) ↔
      (pandas = false ∧ ∃ v, Within v r.args ∧ Foreign v) ∨ (pandas = true ∧ Within .other r.args) := by
    cases pandas with
    | false =>
      simp only [true_and, Bool.false_eq_true, false_and, or_false]
      constructor
      · rintro ⟨v, hv, hb⟩
        exact ⟨v, hv, by cases v <;> simp_all [Bad, Foreign]⟩
      · rintro ⟨v, hv, hb⟩
        exact ⟨v, hv, by cases v <;> simp_all [Bad, Foreign]⟩
    | true =>
      simp only [true_and, Bool.true_eq_false, false_and, false_or]
      constructor
      · rintro ⟨v, hv, hb⟩
        cases v <;> simp_all [Bad]
      · exact fun h => ⟨_, h, trivial⟩
  unfold nameOf
  rcases ser_spec pandas r.args with ⟨hv, e1⟩ | ⟨hn, e1⟩
  · rw [e1]
    have := hb.1 hv
    cases pandas <;> simp_all [Except.map, errOf, eq_comm]
  · rw [e1]
    have := fun h => hn _ (hb.2 h).choose_spec.1 (hb.2 h).choose_spec.2
    simp only [Except.map, reduceCtorEq, false_iff, not_or, not_and]
    exact ⟨fun h1 _ h2 => this (Or.inl ⟨h1, h2⟩), fun h1 _ h2 => this (Or.inr ⟨h1, h2⟩)⟩

namespace Demo

/-- 16 November 2026 -/
def today : Day := ⟨2026, 11, 16, by decide, by decide, by decide⟩
/-- half past six, an hour east of Greenwich -/
def evening : Time := ⟨today, 18, 30, 0, 0, some ⟨3600000000, by decide⟩⟩
/-- a quarter of a second later -/
def later : Time := ⟨today, 18, 30, 0, 250000, some ⟨3600000000, by decide⟩⟩
/-- a request for a day and two times -/
def req (a : P) : DateReq := ⟨"url".toList, .list [.int 1, a], .null, ".cache".toList⟩

theorem parts {P' : P → Prop} {a : P} (h0 : P' (.list [.int 1, a])) (h1 : P' (.int 1)) (ha : ∀ v, Within v a → P' v) :
    ∀ v, Within v (.list [.int 1, a]) → P' v := by
  intro v hv
  cases hv with
  | self => exact h0
  | list hx h =>
    rcases List.mem_cons.1 hx with rfl | hx
    · cases h; exact h1
    · rcases List.mem_cons.1 hx with rfl | hx
      · exact ha v h
      · cases hx

theorem ok (m : Moment) : (req (.moment m)).Ok where
  owner := show '-' ∉ asciiLower "url".toList by decide
  args := parts trivial trivial fun v hv => (by cases hv; exact trivial)
  known := fun h => parts (P' := fun v => v ≠ .other) (by simp) (by simp)
    (fun v hv => (by cases hv; simp)) _ h rfl
  argsListLike := Or.inl ⟨_, .list _⟩
  extra := trivial

theorem okI (ts : List Time) : (req (.index ts)).Ok where
  owner := show '-' ∉ asciiLower "url".toList by decide
  args := parts trivial trivial fun v hv => (by cases hv; exact trivial)
  known := fun h => parts (P' := fun v => v ≠ .other) (by simp) (by simp)
    (fun v hv => (by cases hv; simp)) _ h rfl
  argsListLike := Or.inl ⟨_, .list _⟩
  extra := trivial

end Demo

example : Demo.today.iso = "2026-11-16".toList := by decide +kernel
example : Demo.evening.iso = "2026-11-16T18:30:00+01:00".toList := by decide +kernel
example : Demo.later.iso = "2026-11-16T18:30:00.250000+01:00".toList := by decide +kernel
example : offset (-5400250000) = "-01:30:00.250000".toList := by decide +kernel

/-- `C147_same_file_iff_same_dates_partial`: a quarter of a second is another file. -/
example (sha : List Char → List Char) (hs : ∀ a b, (sha a).length = (sha b).length) (hc : NoCollision sha
    (hashed ((Demo.req (.moment (.time Demo.evening))).written (enc (Demo.req (.moment (.time Demo.evening))).args)))
    (hashed ((Demo.req (.moment (.time Demo.later))).written (enc (Demo.req (.moment (.time Demo.later))).args)))) :
    ¬ ∃ n, nameOf true asciiLower sha (Demo.req (.moment (.time Demo.evening))) = .ok n ∧
      nameOf true asciiLower sha (Demo.req (.moment (.time Demo.later))) = .ok n := by
  rw [C147_same_file_iff_same_dates_partial sha _ _ (Demo.ok _) (Demo.ok _) (by
    intro a a' h h'
    rw [ser_ok (Demo.ok _)] at h h'
    cases h; cases h'
    exact ⟨hs _ _, hc⟩)]
  rintro ⟨_, h, _, _⟩
  cases h with
  | seq h1 h2 h =>
    cases h1; cases h2
    cases h with
    | cons _ h =>
      cases h with
      | cons h _ =>
        generalize hm : Moment.time Demo.later = m at h
        cases h with
        | moment => exact absurd hm (by decide)
        | seq h1 _ _ => cases h1

/-- `C147_errors`: an index of times needs pandas, and is written with it. -/
example : nameOf false id id (Demo.req (.index [Demo.evening])) = .error .noPandas ∧
    ∀ e, nameOf true id id (Demo.req (.index [Demo.evening])) ≠ .error e := by
  refine ⟨(C147_errors _ _ _ _ _).2 (Or.inl ⟨rfl, rfl, _, .list (x := .index [Demo.evening]) (by simp) (.self _), trivial⟩), ?_⟩
  intro e h
  rcases (C147_errors _ _ _ _ _).1 h with ⟨h, _⟩ | ⟨_, _, h⟩
  · cases h
  · exact (Demo.okI _).known h

/-- The full statement (same file iff the same arguments, pandas or not) is false of the code: a date shares its file with
its text, whatever the digest; and without pandas, which the package does not depend on, a date is refused. -/
theorem C147_refuted : ∃ a b : DateReq, ¬ PEq a.args b.args ∧
    (∀ lower sha, ∃ n, nameOf true lower sha a = .ok n ∧ nameOf true lower sha b = .ok n) ∧
    ∀ lower sha, nameOf false lower sha a = .error .noPandas := by
  refine ⟨Demo.req (.moment (.date Demo.today)), Demo.req (.str Demo.today.iso), ?_, ?_, ?_⟩
  · intro h
    cases h with
    | seq h1 h2 h =>
      cases h1; cases h2
      cases h with
      | cons _ h =>
        cases h with
        | cons h _ =>
          cases h with
          | seq h1 _ _ => cases h1
  · intro lower sha
    exact ⟨_, rfl, rfl⟩
  · intro lower sha
    exact (C147_errors _ _ _ _ _).2 (Or.inl ⟨rfl, rfl, _, .list (x := .moment (.date Demo.today)) (by simp) (.self _), trivial⟩)

end Verif.Json.Dates
