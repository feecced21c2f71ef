import Verif.Json.LoadNumbers

/-!
C151: what the JSON files of the inventory and of the cache database mean after they were written, in whole or up to a point.
-/

namespace Verif.Json

/-- What `json.dump` can write: floats are written as their shortest text. -/
inductive Written (fl : Text → Text) : T → Prop
  | null : Written fl .null
  | bool (b : Bool) : Written fl (.bool b)
  | int (i : Int) : Written fl (.int i)
  | float {r : Text} (h : FloatTok fl r) : Written fl (.float r)
  | str (s : Text) : Written fl (.str s)
  | seq {xs : List T} (h : ∀ x ∈ xs, Written fl x) : Written fl (.seq xs)
  | obj {fs : List (Text × T)} (h : ∀ f ∈ fs, Written fl f.2) : Written fl (.obj fs)

/-! ### a larger limit changes nothing -/

theorem mono (fl : Text → Text) (n : Nat) :
    (∀ t x, value fl n t = some x → value fl (n + 1) t = some x) ∧
    (∀ t x, fields fl n t = some x → fields fl (n + 1) t = some x) ∧
    (∀ t x, elems fl n t = some x → elems fl (n + 1) t = some x) := by
  induction n with
  | zero => exact ⟨fun t x h => by simp [value] at h, fun t x h => by simp [fields] at h, fun t x h => by simp [elems] at h⟩
  | succ n ih =>
    obtain ⟨hv, hf, he⟩ := ih
    refine ⟨?_, ?_, ?_⟩
    · intro t x h
      cases t with
      | nil => simp [value] at h
      | cons c r =>
        rw [value] at h ⊢
        by_cases h1 : c = '"'
        · simpa only [if_pos h1] using h
        · simp only [if_neg h1] at h ⊢
          by_cases h2 : c = '{'
          · simp only [if_pos h2] at h ⊢
            cases hr : skipWs r with
            | nil => rw [hr] at h; cases h
            | cons d r =>
              simp only [hr] at h ⊢
              by_cases h3 : d = '}'
              · simpa only [if_pos h3] using h
              · simp only [if_neg h3] at h ⊢
                by_cases h4 : d = '"'
                · simp only [if_pos h4] at h ⊢
                  cases hx : fields fl n r with
                  | none => simp only [hx] at h; cases h
                  | some y => simp only [hf _ _ hx]; simpa only [hx] using h
                · simp only [if_neg h4] at h; cases h
          · simp only [if_neg h2] at h ⊢
            by_cases h3 : c = '['
            · simp only [if_pos h3] at h ⊢
              cases hr : skipWs r with
              | nil => rw [hr] at h; cases h
              | cons d r =>
                simp only [hr] at h ⊢
                by_cases h4 : d = ']'
                · simpa only [if_pos h4] using h
                · simp only [if_neg h4] at h ⊢
                  cases hx : elems fl n (d :: r) with
                  | none => simp only [hx] at h; cases h
                  | some y => simp only [he _ _ hx]; simpa only [hx] using h
            · simpa only [if_neg h3] using h
    · intro t x h
      rw [fields] at h ⊢
      cases hs : scanStr t with
      | none => simp only [hs] at h; cases h
      | some y =>
        obtain ⟨k, r⟩ := y
        simp only [hs] at h ⊢
        cases hr : skipWs r with
        | nil => simp only [hr] at h; cases h
        | cons c r =>
          simp only [hr] at h ⊢
          by_cases h1 : c = ':'
          · simp only [if_pos h1] at h ⊢
            cases hx : value fl n (skipWs r) with
            | none => simp only [hx] at h; cases h
            | some y =>
              obtain ⟨v, r⟩ := y
              simp only [hx] at h
              simp only [hv _ _ hx]
              cases hr : skipWs r with
              | nil => simp only [hr] at h; cases h
              | cons c r =>
                simp only [hr] at h ⊢
                by_cases h2 : c = '}'
                · simpa only [if_pos h2] using h
                · simp only [if_neg h2] at h ⊢
                  by_cases h3 : c = ','
                  · simp only [if_pos h3] at h ⊢
                    cases hr : skipWs r with
                    | nil => simp only [hr] at h; cases h
                    | cons c r =>
                      simp only [hr] at h ⊢
                      by_cases h4 : c = '"'
                      · simp only [if_pos h4] at h ⊢
                        cases hx : fields fl n r with
                        | none => simp only [hx] at h; cases h
                        | some y => simp only [hf _ _ hx]; simpa only [hx] using h
                      · simp only [if_neg h4] at h; cases h
                  · simp only [if_neg h3] at h; cases h
          · simp only [if_neg h1] at h; cases h
    · intro t x h
      rw [elems] at h ⊢
      cases hx : value fl n t with
      | none => simp only [hx] at h; cases h
      | some y =>
        obtain ⟨v, r⟩ := y
        simp only [hx] at h
        simp only [hv _ _ hx]
        cases hr : skipWs r with
        | nil => simp only [hr] at h; cases h
        | cons c r =>
          simp only [hr] at h ⊢
          by_cases h2 : c = ']'
          · simpa only [if_pos h2] using h
          · simp only [if_neg h2] at h ⊢
            by_cases h3 : c = ','
            · simp only [if_pos h3] at h ⊢
              cases hx : elems fl n (skipWs r) with
              | none => simp only [hx] at h; cases h
              | some y => simp only [he _ _ hx]; simpa only [hx] using h
            · simp only [if_neg h3] at h; cases h

theorem value_mono {fl : Text → Text} {n m : Nat} (hm : n ≤ m) {t : Text} {x : T × Text} (h : value fl n t = some x) :
    value fl m t = some x := by
  induction hm with
  | refl => exact h
  | step _ ih => exact (mono fl _).1 _ _ ih

/-- A text has at most one meaning. -/
theorem loads_unique {fl : Text → Text} {t : Text} {v w : T} (hv : Loads fl t v) (hw : Loads fl t w) : v = w := by
  obtain ⟨n, hn⟩ := hv
  obtain ⟨m, hm⟩ := hw
  unfold loadsN at hn hm
  cases h1 : value fl n (skipWs t) with
  | none => simp [h1] at hn
  | some x =>
    cases h2 : value fl m (skipWs t) with
    | none => simp [h2] at hm
    | some y =>
      have e1 := value_mono (Nat.le_max_left n m) h1
      have e2 := value_mono (Nat.le_max_right n m) h2
      rw [e1] at e2
      cases e2
      simp only [h1] at hn
      simp only [h2] at hm
      rw [hn] at hm
      exact Option.some.inj hm

/-! ### the whole text -/

theorem quote_app (s r : Text) : quote s ++ r = '"' :: (escText s ++ '"' :: r) := by
  simp [quote, List.append_assoc]

theorem numChars {fl : Text → Text} {v : T} (ha : Atom v) (hw : Written fl v) (ind : Option Nat) (lvl : Nat) :
    ∀ c ∈ textI ind lvl v, isEnd c = false ∧ c ≠ '"' ∧ c ≠ '{' ∧ c ≠ '[' := by
  have dig : ∀ c, isDig c = true → isEnd c = false ∧ c ≠ '"' ∧ c ≠ '{' ∧ c ≠ '[' := by
    intro c hc
    refine ⟨?_, ?_, ?_, ?_⟩
    · by_contra h
      have h' : isEnd c = true := by simpa using h
      rcases isEnd_cases h' with rfl | rfl | rfl | rfl | rfl | rfl | rfl <;> exact absurd hc (by decide)
    all_goals (rintro rfl; exact absurd hc (by decide))
  have sg : ∀ m, ∀ c ∈ sgn m, isEnd c = false ∧ c ≠ '"' ∧ c ≠ '{' ∧ c ≠ '[' := by decide
  have ipd : ∀ ip, IntTok ip → ∀ c ∈ ip, isEnd c = false ∧ c ≠ '"' ∧ c ≠ '{' ∧ c ≠ '[' := by
    rintro ip (rfl | ⟨⟨_, hd⟩, _⟩) c hc
    · simp only [List.mem_singleton] at hc; subst hc; decide
    · exact dig c (hd c hc)
  match v, ha with
  | .null, _ => simp only [textI]; decide
  | .bool true, _ => simp only [textI]; decide
  | .bool false, _ => simp only [textI]; decide
  | .int i, _ =>
    obtain ⟨m, ip, h1, h2, _⟩ := intText_split i
    intro c hc
    simp only [textI, h1, List.mem_append] at hc
    rcases hc with hc | hc
    · exact sg m c hc
    · exact ipd ip h2 c hc
  | .float s, _ =>
    cases hw with
    | float h =>
      simp only [textI]
      rcases h with hwd | ⟨_, m, ip, f, e, rfl, hi, hf, he, _⟩
      · simp only [List.mem_cons, List.not_mem_nil, or_false] at hwd
        rcases hwd with rfl | rfl | rfl <;> decide
      · intro c hc
        simp only [List.mem_append] at hc
        rcases hc with ((hc | hc) | hc) | hc
        · exact sg m c hc
        · exact ipd ip hi c hc
        · rcases hf with rfl | ⟨ds, rfl, _, hd⟩
          · cases hc
          · rcases List.mem_cons.mp hc with rfl | hc
            · decide
            · exact dig c (hd c hc)
        · rcases he with rfl | ⟨x, g, ds, hx, hg, ⟨_, hd⟩, rfl⟩
          · cases hc
          · rcases List.mem_cons.mp hc with rfl | hc
            · rcases hx with rfl | rfl <;> decide
            · rcases List.mem_append.mp hc with hc | hc
              · rcases hg with rfl | rfl | rfl
                · cases hc
                · simp only [List.mem_singleton] at hc; subst hc; decide
                · simp only [List.mem_singleton] at hc; subst hc; decide
              · exact dig c (hd c hc)

theorem value_atom (fl : Text → Text) (n : Nat) (c : Char) (t : Text) (h : c ≠ '"' ∧ c ≠ '{' ∧ c ≠ '[') :
    value fl (n + 1) (c :: t) = atom fl (c :: t) := by
  rw [value]
  simp only [if_neg h.1, if_neg h.2.1, if_neg h.2.2]

/-- The text of a value begins with a character that is neither white space nor a closing bracket. -/
theorem text_first {fl : Text → Text} {v : T} (hw : Written fl v) (ind : Option Nat) (lvl : Nat) :
    ∃ c t, textI ind lvl v = c :: t ∧ isEnd c = false := by
  have at' : Atom v → ∃ c t, textI ind lvl v = c :: t ∧ isEnd c = false := by
    intro ha
    cases hc : textI ind lvl v with
    | nil =>
      have h := atom_read fl v ha (fun r hr => by subst hr; cases hw; assumption) ind lvl [] (fun c t h => by cases h)
      rw [hc] at h
      exact absurd h (by simp [atom, after, number, minusPart, natPart])
    | cons c t => exact ⟨c, t, rfl, (numChars ha hw ind lvl c (by rw [hc]; simp)).1⟩
  cases hw with
  | null => exact at' trivial
  | bool b => exact at' trivial
  | int i => exact at' trivial
  | float h => exact at' trivial
  | str s => exact ⟨'"', _, by rw [textI]; rfl, by decide⟩
  | @seq xs h =>
    cases xs with
    | nil => exact ⟨'[', _, by rw [textI], by decide⟩
    | cons x xs => exact ⟨'[', _, by rw [textI], by decide⟩
  | @obj fs h =>
    cases fs with
    | nil => exact ⟨'{', _, by rw [textI], by decide⟩
    | cons f fs => obtain ⟨k, v⟩ := f; exact ⟨'{', _, by rw [textI], by decide⟩

theorem isEnd_ws {c : Char} (h : isEnd c = false) : isWs c = false ∧ c ≠ ']' ∧ c ≠ '}' ∧ c ≠ ',' := by
  unfold isEnd at h
  simp only [Bool.or_eq_false_iff, beq_eq_false_iff_ne] at h
  tauto

/-- `v` is read from its text, at every level and before whatever may follow, with every limit that is large enough. -/
def Reads (fl : Text → Text) (ind : Option Nat) (v : T) : Prop :=
  ∃ N, ∀ n, N ≤ n → ∀ lvl r, Ends r → value fl n (textI ind lvl v ++ r) = some (v, r)

theorem gap_ends (ind : Option Nat) (lvl : Nat) (c : Char) (r : Text) (hc : isEnd c = true) : Ends (gap ind lvl ++ c :: r) := by
  intro d t h
  cases ind with
  | none => simp only [gap, List.nil_append, List.cons.injEq] at h; rw [← h.1]; exact hc
  | some k => simp only [gap, List.cons_append, List.cons.injEq] at h; rw [← h.1]; decide

theorem textIL_ends (ind : Option Nat) (lvl : Nat) (xs : List T) (r : Text) : Ends (textIL ind lvl xs ++ r) := by
  cases xs with
  | nil => simp only [textIL, List.append_assoc]; exact gap_ends ind lvl ']' _ (by decide)
  | cons x xs =>
    intro c t h
    simp only [textIL, List.cons_append, List.cons.injEq] at h
    rw [← h.1]; decide

theorem textIF_ends (ind : Option Nat) (lvl : Nat) (fs : List (Text × T)) (r : Text) : Ends (textIF ind lvl fs ++ r) := by
  cases fs with
  | nil => simp only [textIF, List.append_assoc]; exact gap_ends ind lvl '}' _ (by decide)
  | cons f fs =>
    obtain ⟨k, v⟩ := f
    intro c t h
    simp only [textIF, List.cons_append, List.cons.injEq] at h
    rw [← h.1]; decide

theorem skip_first {fl : Text → Text} {v : T} (hw : Written fl v) (ind : Option Nat) (lvl : Nat) (r : Text) :
    skipWs (textI ind lvl v ++ r) = textI ind lvl v ++ r := by
  obtain ⟨c, t, h, hc⟩ := text_first hw ind lvl
  rw [h]
  exact skip_head c _ (isEnd_ws hc).1

theorem elems_read {fl : Text → Text} {ind : Option Nat} (xs : List T) : ∀ x, Written fl x → Reads fl ind x →
    (∀ y ∈ xs, Written fl y ∧ Reads fl ind y) →
    ∃ N, ∀ n, N ≤ n → ∀ lvl r, elems fl n (textI ind (lvl + 1) x ++ (textIL ind lvl xs ++ r)) = some (x :: xs, r) := by
  induction xs with
  | nil =>
    rintro x hw ⟨N, hN⟩ _
    refine ⟨N + 1, ?_⟩
    intro n hn lvl r
    obtain ⟨n, rfl⟩ : ∃ m, n = m + 1 := ⟨n - 1, by omega⟩
    rw [elems, hN n (by omega) _ _ (textIL_ends ind lvl [] r)]
    simp only [textIL, List.append_assoc, (skip_gap ind lvl _).1]
    rw [List.singleton_append, skip_head ']' r (by decide)]
    simp only [if_true]
  | cons y ys ih =>
    rintro x hw ⟨N, hN⟩ hys
    obtain ⟨hy, hyr⟩ := hys y (by simp)
    obtain ⟨M, hM⟩ := ih y hy hyr (fun z hz => hys z (by simp [hz]))
    refine ⟨max N M + 1, ?_⟩
    intro n hn lvl r
    obtain ⟨n, rfl⟩ : ∃ m, n = m + 1 := ⟨n - 1, by omega⟩
    rw [elems, hN n (by omega) _ _ (textIL_ends ind lvl (y :: ys) r)]
    simp only [textIL, List.cons_append]
    rw [skip_head ',' _ (by decide)]
    simp only [List.append_assoc, (skip_gap ind (lvl + 1) _).2, skip_first hy, hM n (by omega) lvl r, if_true]
    rw [if_neg (by decide)]

theorem fields_read {fl : Text → Text} {ind : Option Nat} (fs : List (Text × T)) : ∀ k x, Written fl x → Reads fl ind x →
    (∀ f ∈ fs, Written fl f.2 ∧ Reads fl ind f.2) →
    ∃ N, ∀ n, N ≤ n → ∀ lvl r,
      fields fl n (escText k ++ '"' :: ':' :: ' ' :: (textI ind (lvl + 1) x ++ (textIF ind lvl fs ++ r))) = some ((k, x) :: fs, r) := by
  induction fs with
  | nil =>
    rintro k x hw ⟨N, hN⟩ _
    refine ⟨N + 1, ?_⟩
    intro n hn lvl r
    obtain ⟨n, rfl⟩ : ∃ m, n = m + 1 := ⟨n - 1, by omega⟩
    rw [fields, scan_quote]
    simp only []
    rw [skip_head ':' _ (by decide)]
    simp only [if_true]
    rw [show skipWs (' ' :: (textI ind (lvl + 1) x ++ (textIF ind lvl [] ++ r))) = skipWs (textI ind (lvl + 1) x ++ (textIF ind lvl [] ++ r)) from rfl,
      skip_first hw, hN n (by omega) _ _ (textIF_ends ind lvl [] r)]
    simp only [textIF, List.append_assoc, (skip_gap ind lvl _).1]
    rw [List.singleton_append, skip_head '}' r (by decide)]
    simp only [if_true]
  | cons f fs ih =>
    obtain ⟨j, y⟩ := f
    rintro k x hw ⟨N, hN⟩ hys
    obtain ⟨hy, hyr⟩ := hys (j, y) (by simp)
    obtain ⟨M, hM⟩ := ih j y hy hyr (fun z hz => hys z (by simp [hz]))
    refine ⟨max N M + 1, ?_⟩
    intro n hn lvl r
    obtain ⟨n, rfl⟩ : ∃ m, n = m + 1 := ⟨n - 1, by omega⟩
    rw [fields, scan_quote]
    simp only []
    rw [skip_head ':' _ (by decide)]
    simp only [if_true]
    rw [show skipWs (' ' :: (textI ind (lvl + 1) x ++ (textIF ind lvl ((j, y) :: fs) ++ r))) =
        skipWs (textI ind (lvl + 1) x ++ (textIF ind lvl ((j, y) :: fs) ++ r)) from rfl,
      skip_first hw, hN n (by omega) _ _ (textIF_ends ind lvl ((j, y) :: fs) r)]
    simp only [textIF, List.cons_append]
    rw [skip_head ',' _ (by decide)]
    simp only [List.append_assoc, List.cons_append, (skip_gap ind (lvl + 1) _).2, quote_app]
    rw [skip_head '"' _ (by decide)]
    simp only [hM n (by omega) lvl r]
    simp only [if_true]
    rw [if_neg (by decide)]

theorem reads_all {fl : Text → Text} (ind : Option Nat) {v : T} (hw : Written fl v) : Reads fl ind v := by
  have at' : ∀ v, Written fl v → Atom v → Reads fl ind v := by
    intro v hw ha
    refine ⟨1, ?_⟩
    intro n hn lvl r hr
    obtain ⟨n, rfl⟩ : ∃ m, n = m + 1 := ⟨n - 1, by omega⟩
    have h := atom_read fl v ha (fun r hr => by subst hr; cases hw; assumption) ind lvl r hr
    obtain ⟨c, t, hc, _⟩ := text_first hw ind lvl
    have hq := (numChars ha hw ind lvl c (by rw [hc]; simp)).2
    rw [hc, List.cons_append] at h ⊢
    rw [value_atom fl n c _ hq, h]
  induction hw with
  | null => exact at' _ .null trivial
  | bool b => exact at' _ (.bool b) trivial
  | int i => exact at' _ (.int i) trivial
  | float h => exact at' _ (.float h) trivial
  | str s =>
    refine ⟨1, ?_⟩
    intro n hn lvl r hr
    obtain ⟨n, rfl⟩ : ∃ m, n = m + 1 := ⟨n - 1, by omega⟩
    simp only [textI, quote_app]
    rw [value, if_pos rfl, scan_quote]
  | @seq xs h ih =>
    cases xs with
    | nil =>
      refine ⟨1, ?_⟩
      intro n hn lvl r hr
      obtain ⟨n, rfl⟩ : ∃ m, n = m + 1 := ⟨n - 1, by omega⟩
      simp only [textI, List.cons_append, List.nil_append]
      rw [value, if_neg (by decide), if_neg (by decide), if_pos rfl, skip_head ']' r (by decide)]
      simp only [if_true]
    | cons x xs =>
      obtain ⟨N, hN⟩ := elems_read xs x (h x (by simp)) (ih x (by simp)) (fun y hy => ⟨h y (by simp [hy]), ih y (by simp [hy])⟩)
      refine ⟨N + 1, ?_⟩
      intro n hn lvl r hr
      obtain ⟨n, rfl⟩ : ∃ m, n = m + 1 := ⟨n - 1, by omega⟩
      simp only [textI, List.cons_append, List.append_assoc]
      rw [value, if_neg (by decide), if_neg (by decide), if_pos rfl, (skip_gap ind (lvl + 1) _).1, skip_first (h x (by simp))]
      have hN' := hN n (by omega) lvl r
      obtain ⟨c, t, hc, hce⟩ := text_first (h x (by simp)) ind (lvl + 1)
      rw [hc, List.cons_append] at hN' ⊢
      simp only [hN', if_neg (isEnd_ws hce).2.1]
  | @obj fs h ih =>
    cases fs with
    | nil =>
      refine ⟨1, ?_⟩
      intro n hn lvl r hr
      obtain ⟨n, rfl⟩ : ∃ m, n = m + 1 := ⟨n - 1, by omega⟩
      simp only [textI, List.cons_append, List.nil_append]
      rw [value, if_neg (by decide), if_pos rfl, skip_head '}' r (by decide)]
      simp only [if_true]
    | cons f fs =>
      obtain ⟨k, x⟩ := f
      obtain ⟨N, hN⟩ := fields_read fs k x (h (k, x) (by simp)) (ih (k, x) (by simp)) (fun y hy => ⟨h y (by simp [hy]), ih y (by simp [hy])⟩)
      refine ⟨N + 1, ?_⟩
      intro n hn lvl r hr
      obtain ⟨n, rfl⟩ : ∃ m, n = m + 1 := ⟨n - 1, by omega⟩
      simp only [textI, List.cons_append, List.append_assoc, quote_app]
      rw [value, if_neg (by decide), if_pos rfl, (skip_gap ind (lvl + 1) _).1, skip_head '"' _ (by decide)]
      simp only [hN n (by omega) lvl r, if_true]
      rw [if_neg (by decide)]

/-! ### a text that was cut -/

theorem ends_prefix {q l : Text} (h : q <+: l) (hl : Ends l) : Ends q := by
  rintro c t rfl
  obtain ⟨s, rfl⟩ := h
  exact hl c _ rfl

theorem read_or_none {fl : Text → Text} {ind : Option Nat} {v : T} (h : Reads fl ind v) (n lvl : Nat) {r : Text} (hr : Ends r) :
    value fl n (textI ind lvl v ++ r) = none ∨ value fl n (textI ind lvl v ++ r) = some (v, r) := by
  cases hx : value fl n (textI ind lvl v ++ r) with
  | none => exact .inl rfl
  | some x =>
    obtain ⟨N, hN⟩ := h
    have h1 := value_mono (Nat.le_max_left n N) hx
    rw [hN (max n N) (Nat.le_max_right n N) lvl r hr] at h1
    exact .inr h1.symm

/-- Of a text that was cut only a number can be left, and what follows it does not close anything. -/
def Cut (fl : Text → Text) (ind : Option Nat) (v : T) : Prop :=
  ∀ n lvl p, p <+: textI ind lvl v → p ≠ textI ind lvl v →
    ∀ w r, value fl n p = some (w, r) → Atom v ∧ ∀ c ∈ r, isEnd c = false

theorem value_nil (fl : Text → Text) (n : Nat) : value fl n [] = none := by cases n <;> simp [value]

theorem stuck_skip {r : Text} (h : ∀ c ∈ r, isEnd c = false) : skipWs r = r := by
  cases r with
  | nil => rfl
  | cons c t => exact skip_head c t (isEnd_ws (h c (by simp))).1

theorem skip_prefix {fl : Text → Text} {v : T} (hw : Written fl v) (ind : Option Nat) (lvl : Nat) {p r : Text}
    (h : p <+: textI ind lvl v ++ r) : skipWs p = p := by
  obtain ⟨c, t, hc, he⟩ := text_first hw ind lvl
  cases p with
  | nil => rfl
  | cons d q =>
    rw [hc, List.cons_append, List.cons_prefix_cons] at h
    rw [h.1]
    exact skip_head c q (isEnd_ws he).1

theorem gap_cut {ind : Option Nat} {lvl : Nat} {d : Char} {q : Text} (h : q <+: gap ind lvl ++ [d]) (hne : q ≠ gap ind lvl ++ [d]) :
    skipWs q = [] := by
  rcases prefix_append h with h1 | ⟨q', rfl, h1⟩
  · exact skip_gap_cut ind lvl q (.inl h1)
  · cases q' with
    | nil => exact skip_gap_cut ind lvl _ (.inl (by simp))
    | cons e t =>
      rw [List.cons_prefix_cons] at h1
      obtain ⟨he, ht⟩ := h1
      rw [he, List.prefix_nil.mp ht] at hne
      exact absurd rfl hne

theorem elems_cut {fl : Text → Text} {ind : Option Nat} (xs : List T) : ∀ x, Written fl x → Cut fl ind x →
    (∀ y ∈ xs, Written fl y ∧ Cut fl ind y) →
    ∀ n lvl p, p <+: textI ind (lvl + 1) x ++ textIL ind lvl xs → p ≠ textI ind (lvl + 1) x ++ textIL ind lvl xs →
      elems fl n p = none := by
  induction xs with
  | nil =>
    intro x hw hc _ n lvl p hp hne
    cases n with
    | zero => simp [elems]
    | succ n =>
      by_cases hpx : p <+: textI ind (lvl + 1) x ∧ p ≠ textI ind (lvl + 1) x
      · rw [elems]
        cases hv : value fl n p with
        | none => rfl
        | some y =>
          obtain ⟨w, r⟩ := y
          obtain ⟨_, hr⟩ := hc n _ p hpx.1 hpx.2 w r hv
          simp only [stuck_skip hr]
          cases r with
          | nil => rfl
          | cons c t =>
            have := isEnd_ws (hr c (by simp))
            simp only [if_neg this.2.1, if_neg this.2.2.2]
      · obtain ⟨q, rfl, hq⟩ : ∃ q, p = textI ind (lvl + 1) x ++ q ∧ q <+: textIL ind lvl [] := by
          rcases prefix_append hp with h | h
          · have : p = textI ind (lvl + 1) x := by by_contra hn; exact hpx ⟨h, hn⟩
            exact ⟨[], by simp [this], by simp⟩
          · exact h
        have hq' : q ≠ textIL ind lvl [] := fun h => hne (by rw [h])
        rw [elems]
        have he : Ends (textIL ind lvl []) := by have := textIL_ends ind lvl [] []; rwa [List.append_nil] at this
        rcases read_or_none (reads_all ind hw) n (lvl + 1) (ends_prefix hq he) with h | h
        · rw [h]
        · simp only [textIL] at hq hq'
          simp only [h, gap_cut hq hq']
  | cons y ys ih =>
    intro x hw hc hys n lvl p hp hne
    cases n with
    | zero => simp [elems]
    | succ n =>
      by_cases hpx : p <+: textI ind (lvl + 1) x ∧ p ≠ textI ind (lvl + 1) x
      · rw [elems]
        cases hv : value fl n p with
        | none => rfl
        | some z =>
          obtain ⟨w, r⟩ := z
          obtain ⟨_, hr⟩ := hc n _ p hpx.1 hpx.2 w r hv
          simp only [stuck_skip hr]
          cases r with
          | nil => rfl
          | cons c t =>
            have := isEnd_ws (hr c (by simp))
            simp only [if_neg this.2.1, if_neg this.2.2.2]
      · obtain ⟨q, rfl, hq⟩ : ∃ q, p = textI ind (lvl + 1) x ++ q ∧ q <+: textIL ind lvl (y :: ys) := by
          rcases prefix_append hp with h | h
          · have : p = textI ind (lvl + 1) x := by by_contra hn; exact hpx ⟨h, hn⟩
            exact ⟨[], by simp [this], by simp⟩
          · exact h
        have hq' : q ≠ textIL ind lvl (y :: ys) := fun h => hne (by rw [h])
        rw [elems]
        have he : Ends (textIL ind lvl (y :: ys)) := by have := textIL_ends ind lvl (y :: ys) []; rwa [List.append_nil] at this
        rcases read_or_none (reads_all ind hw) n (lvl + 1) (ends_prefix hq he) with h | h
        · rw [h]
        · simp only [h]
          simp only [textIL] at hq hq'
          cases q with
          | nil => rfl
          | cons c q1 =>
            rw [List.cons_prefix_cons] at hq
            obtain ⟨hcc, hq1⟩ := hq
            subst hcc
            have hq1' : q1 ≠ gap' ind (lvl + 1) ++ (textI ind (lvl + 1) y ++ textIL ind lvl ys) := fun h => hq' (by rw [h])
            have hn : elems fl n (skipWs q1) = none := by
              rcases prefix_append hq1 with hg | ⟨q2, rfl, hq2⟩
              · rw [skip_gap_cut ind (lvl + 1) q1 (.inr hg)]
                cases n with
                | zero => simp [elems]
                | succ n => rw [elems, value_nil]
              · rw [(skip_gap ind (lvl + 1) q2).2, skip_prefix (hys y (by simp)).1 ind (lvl + 1) hq2]
                exact ih y (hys y (by simp)).1 (hys y (by simp)).2 (fun z hz => hys z (by simp [hz])) n lvl q2 hq2
                  (fun h => hq1' (by rw [h]))
            rw [skip_head ',' q1 (by decide)]
            simp only [hn, if_true]
            rw [if_neg (by decide)]

/-- The text after the opening quote of a key. -/
theorem key_cut {fl : Text → Text} (n : Nat) (k m p : Text) (hp : p <+: escText k ++ '"' :: ':' :: ' ' :: m) :
    fields fl (n + 1) p = none ∨ ∃ q, p = escText k ++ '"' :: ':' :: ' ' :: q ∧ q <+: m := by
  rcases prefix_append hp with h | ⟨q, rfl, hq⟩
  · left; rw [fields, scan_cut k p h]
  · cases q with
    | nil => left; rw [fields, scan_cut k _ (by simp)]
    | cons c q =>
      rw [List.cons_prefix_cons] at hq
      obtain ⟨rfl, hq⟩ := hq
      cases q with
      | nil => left; rw [fields, scan_quote]; rfl
      | cons c q =>
        rw [List.cons_prefix_cons] at hq
        obtain ⟨rfl, hq⟩ := hq
        cases q with
        | nil =>
          left
          rw [fields, scan_quote]
          simp only []
          rw [skip_head ':' [] (by decide)]
          simp only [if_true]
          rw [show skipWs ([] : Text) = [] from rfl, value_nil]
        | cons c q =>
          rw [List.cons_prefix_cons] at hq
          obtain ⟨rfl, hq⟩ := hq
          exact .inr ⟨q, rfl, hq⟩

theorem fields_cut {fl : Text → Text} {ind : Option Nat} (fs : List (Text × T)) : ∀ k x, Written fl x → Cut fl ind x →
    (∀ f ∈ fs, Written fl f.2 ∧ Cut fl ind f.2) →
    ∀ n lvl p, p <+: escText k ++ '"' :: ':' :: ' ' :: (textI ind (lvl + 1) x ++ textIF ind lvl fs) →
      p ≠ escText k ++ '"' :: ':' :: ' ' :: (textI ind (lvl + 1) x ++ textIF ind lvl fs) → fields fl n p = none := by
  induction fs with
  | nil =>
    intro k x hw hc _ n lvl p hp hne
    cases n with
    | zero => simp [fields]
    | succ n =>
      rcases key_cut (fl := fl) n k _ p hp with h | ⟨p, rfl, hp1⟩
      · exact h
      clear hp
      have hp := hp1
      have hne : p ≠ textI ind (lvl + 1) x ++ textIF ind lvl [] := fun h => hne (by rw [h])
      rw [fields, scan_quote]
      simp only []
      rw [skip_head ':' _ (by decide)]
      simp only [if_true]
      rw [show skipWs (' ' :: p) = skipWs p from rfl, skip_prefix hw ind (lvl + 1) hp]
      by_cases hpx : p <+: textI ind (lvl + 1) x ∧ p ≠ textI ind (lvl + 1) x
      · cases hv : value fl n p with
        | none => rfl
        | some y =>
          obtain ⟨w, r⟩ := y
          obtain ⟨_, hr⟩ := hc n _ p hpx.1 hpx.2 w r hv
          simp only [stuck_skip hr]
          cases r with
          | nil => rfl
          | cons c t =>
            have := isEnd_ws (hr c (by simp))
            simp only [if_neg this.2.2.1, if_neg this.2.2.2]
      · obtain ⟨q, rfl, hq⟩ : ∃ q, p = textI ind (lvl + 1) x ++ q ∧ q <+: textIF ind lvl [] := by
          rcases prefix_append hp with h | h
          · have : p = textI ind (lvl + 1) x := by by_contra hn; exact hpx ⟨h, hn⟩
            exact ⟨[], by simp [this], by simp⟩
          · exact h
        have hq' : q ≠ textIF ind lvl [] := fun h => hne (by rw [h])
        have he : Ends (textIF ind lvl []) := by have := textIF_ends ind lvl [] []; rwa [List.append_nil] at this
        rcases read_or_none (reads_all ind hw) n (lvl + 1) (ends_prefix hq he) with h | h
        · rw [h]
        · simp only [textIF] at hq hq'
          simp only [h, gap_cut hq hq']
  | cons f ys ih =>
    obtain ⟨j, y⟩ := f
    intro k x hw hc hys n lvl p hp hne
    cases n with
    | zero => simp [fields]
    | succ n =>
      rcases key_cut (fl := fl) n k _ p hp with h | ⟨p, rfl, hp1⟩
      · exact h
      clear hp
      have hp := hp1
      have hne : p ≠ textI ind (lvl + 1) x ++ textIF ind lvl ((j, y) :: ys) := fun h => hne (by rw [h])
      rw [fields, scan_quote]
      simp only []
      rw [skip_head ':' _ (by decide)]
      simp only [if_true]
      rw [show skipWs (' ' :: p) = skipWs p from rfl, skip_prefix hw ind (lvl + 1) hp]
      by_cases hpx : p <+: textI ind (lvl + 1) x ∧ p ≠ textI ind (lvl + 1) x
      · cases hv : value fl n p with
        | none => rfl
        | some z =>
          obtain ⟨w, r⟩ := z
          obtain ⟨_, hr⟩ := hc n _ p hpx.1 hpx.2 w r hv
          simp only [stuck_skip hr]
          cases r with
          | nil => rfl
          | cons c t =>
            have := isEnd_ws (hr c (by simp))
            simp only [if_neg this.2.2.1, if_neg this.2.2.2]
      · obtain ⟨q, rfl, hq⟩ : ∃ q, p = textI ind (lvl + 1) x ++ q ∧ q <+: textIF ind lvl ((j, y) :: ys) := by
          rcases prefix_append hp with h | h
          · have : p = textI ind (lvl + 1) x := by by_contra hn; exact hpx ⟨h, hn⟩
            exact ⟨[], by simp [this], by simp⟩
          · exact h
        have hq' : q ≠ textIF ind lvl ((j, y) :: ys) := fun h => hne (by rw [h])
        have he : Ends (textIF ind lvl ((j, y) :: ys)) := by
          have := textIF_ends ind lvl ((j, y) :: ys) []; rwa [List.append_nil] at this
        rcases read_or_none (reads_all ind hw) n (lvl + 1) (ends_prefix hq he) with h | h
        · rw [h]
        · simp only [h]
          simp only [textIF, quote_app] at hq hq'
          cases q with
          | nil => rfl
          | cons c q1 =>
            rw [List.cons_prefix_cons] at hq
            obtain ⟨hcc, hq1⟩ := hq
            subst hcc
            rw [skip_head ',' q1 (by decide)]
            simp only [if_true]
            rw [if_neg (by decide)]
            rcases prefix_append hq1 with hg | ⟨q2, rfl, hq2⟩
            · rw [skip_gap_cut ind (lvl + 1) q1 (.inr hg)]
            · rw [(skip_gap ind (lvl + 1) q2).2]
              cases q2 with
              | nil => rfl
              | cons c q3 =>
                rw [List.cons_prefix_cons] at hq2
                obtain ⟨hcc, hq3⟩ := hq2
                subst hcc
                have hn : fields fl n q3 = none :=
                  ih j y (hys (j, y) (by simp)).1 (hys (j, y) (by simp)).2 (fun z hz => hys z (by simp [hz])) n lvl q3 hq3
                    (fun h => hq' (by rw [h]))
                rw [skip_head '"' q3 (by decide)]
                simp only [hn, if_true]

theorem cut_all {fl : Text → Text} (ind : Option Nat) {v : T} (hw : Written fl v) : Cut fl ind v := by
  have at' : ∀ v, Written fl v → Atom v → Cut fl ind v := by
    intro v hw ha n lvl p hp _ w r h
    refine ⟨ha, ?_⟩
    have hch := numChars ha hw ind lvl
    cases p with
    | nil => rw [value_nil] at h; cases h
    | cons c t =>
      cases n with
      | zero => simp [value] at h
      | succ n =>
        rw [value_atom fl n c t (hch c (hp.subset (by simp))).2] at h
        intro d hd
        exact (hch d (hp.subset ((atom_suffix h).subset hd))).1
  have none' : ∀ v, (∀ n lvl p, p <+: textI ind lvl v → p ≠ textI ind lvl v → value fl n p = none) → Cut fl ind v := by
    intro v h n lvl p hp hne w r hv
    rw [h n lvl p hp hne] at hv
    cases hv
  induction hw with
  | null => exact at' _ .null trivial
  | bool b => exact at' _ (.bool b) trivial
  | int i => exact at' _ (.int i) trivial
  | float h => exact at' _ (.float h) trivial
  | str s =>
    apply none'
    intro n lvl p hp hne
    simp only [textI, quote] at hp hne
    cases n with
    | zero => simp [value]
    | succ n =>
      cases p with
      | nil => exact value_nil _ _
      | cons c q =>
        rw [List.cons_prefix_cons] at hp
        obtain ⟨hcc, hq⟩ := hp
        subst hcc
        rw [value, if_pos rfl]
        have : scanStr q = none := by
          rcases prefix_append hq with h | ⟨q', rfl, h⟩
          · exact scan_cut s q h
          · cases q' with
            | nil => exact scan_cut s _ (by simp)
            | cons e t =>
              rw [List.cons_prefix_cons] at h
              obtain ⟨he, ht⟩ := h
              rw [he, List.prefix_nil.mp ht] at hne
              exact absurd rfl hne
        rw [this]
  | @seq xs h ih =>
    apply none'
    intro n lvl p hp hne
    cases n with
    | zero => simp [value]
    | succ n =>
      cases p with
      | nil => exact value_nil _ _
      | cons c q =>
        cases xs with
        | nil =>
          simp only [textI] at hp hne
          rw [List.cons_prefix_cons] at hp
          obtain ⟨hcc, hq⟩ := hp
          subst hcc
          rw [value, if_neg (by decide), if_neg (by decide), if_pos rfl]
          cases q with
          | nil => rfl
          | cons e t =>
            rw [List.cons_prefix_cons] at hq
            obtain ⟨he, ht⟩ := hq
            rw [he, List.prefix_nil.mp ht] at hne
            exact absurd rfl hne
        | cons x xs =>
          simp only [textI] at hp hne
          rw [List.cons_prefix_cons] at hp
          obtain ⟨hcc, hq⟩ := hp
          subst hcc
          rw [value, if_neg (by decide), if_neg (by decide), if_pos rfl]
          rcases prefix_append hq with hg | ⟨q2, rfl, hq2⟩
          · rw [skip_gap_cut ind (lvl + 1) q (.inl hg)]
          · have hx := h x (by simp)
            rw [(skip_gap ind (lvl + 1) q2).1, skip_prefix hx ind (lvl + 1) hq2]
            have hn := elems_cut xs x hx (ih x (by simp)) (fun y hy => ⟨h y (by simp [hy]), ih y (by simp [hy])⟩) n lvl q2 hq2
              (fun e => hne (by rw [e]))
            cases q2 with
            | nil => rfl
            | cons d t =>
              obtain ⟨c, t', hc, hce⟩ := text_first hx ind (lvl + 1)
              have hd : d = c := by
                rw [hc, List.cons_append, List.cons_prefix_cons] at hq2
                exact hq2.1
              rw [← hd] at hce
              simp only [hn, if_neg (isEnd_ws hce).2.1]
  | @obj fs h ih =>
    apply none'
    intro n lvl p hp hne
    cases n with
    | zero => simp [value]
    | succ n =>
      cases p with
      | nil => exact value_nil _ _
      | cons c q =>
        cases fs with
        | nil =>
          simp only [textI] at hp hne
          rw [List.cons_prefix_cons] at hp
          obtain ⟨hcc, hq⟩ := hp
          subst hcc
          rw [value, if_neg (by decide), if_pos rfl]
          cases q with
          | nil => rfl
          | cons e t =>
            rw [List.cons_prefix_cons] at hq
            obtain ⟨he, ht⟩ := hq
            rw [he, List.prefix_nil.mp ht] at hne
            exact absurd rfl hne
        | cons f fs =>
          obtain ⟨k, x⟩ := f
          simp only [textI, quote_app] at hp hne
          rw [List.cons_prefix_cons] at hp
          obtain ⟨hcc, hq⟩ := hp
          subst hcc
          rw [value, if_neg (by decide), if_pos rfl]
          rcases prefix_append hq with hg | ⟨q2, rfl, hq2⟩
          · rw [skip_gap_cut ind (lvl + 1) q (.inl hg)]
          · rw [(skip_gap ind (lvl + 1) q2).1]
            cases q2 with
            | nil => rfl
            | cons d q3 =>
              rw [List.cons_prefix_cons] at hq2
              obtain ⟨hdd, hq3⟩ := hq2
              subst hdd
              have hn := fields_cut fs k x (h (k, x) (by simp)) (ih (k, x) (by simp))
                (fun y hy => ⟨h y (by simp [hy]), ih y (by simp [hy])⟩) n lvl q3 hq3 (fun e => hne (by rw [e]))
              rw [skip_head '"' q3 (by decide)]
              simp only [hn, if_true]
              rw [if_neg (by decide)]

/-! ### C151 -/

/-- **C151** A text that `json.dump` wrote, with or without an indentation, is read as the value that was written, and as nothing else. -/
theorem C151_whole {fl : Text → Text} {v : T} (hw : Written fl v) (ind : Option Nat) (w : T) :
    Loads fl (textI ind 0 v) w ↔ w = v := by
  have h : Loads fl (textI ind 0 v) v := by
    obtain ⟨N, hN⟩ := reads_all ind hw
    refine ⟨N, ?_⟩
    have h1 := hN N (Nat.le_refl N) 0 [] (fun c t h => by cases h)
    have h2 := skip_first hw ind 0 []
    rw [List.append_nil] at h1 h2
    unfold loadsN
    rw [h2, h1]
    rfl
  exact ⟨fun hl => loads_unique hl h, fun e => e ▸ h⟩

/-- **C151** At whatever point the writing of an object, a list or a text was interrupted: what is in the file can be read only if all
of it was written, and then it is the value that was written. -/
theorem C151_moment {fl : Text → Text} {v : T} (hw : Written fl v) (hc : ¬ Atom v) (ind : Option Nat) (p : Text)
    (hp : p <+: textI ind 0 v) (w : T) : Loads fl p w ↔ p = textI ind 0 v ∧ w = v := by
  constructor
  · intro hl
    by_cases he : p = textI ind 0 v
    · exact ⟨he, (C151_whole hw ind w).mp (he ▸ hl)⟩
    · exfalso
      obtain ⟨n, hn⟩ := hl
      unfold loadsN at hn
      rw [skip_prefix hw ind 0 (r := []) (by simpa using hp)] at hn
      cases hv : value fl n p with
      | none => rw [hv] at hn; cases hn
      | some x =>
        obtain ⟨w', r⟩ := x
        exact hc (cut_all ind hw n 0 p hp he w' r hv).1
  · rintro ⟨rfl, rfl⟩
    exact (C151_whole hw ind w).mpr rfl

mutual
theorem textI_none : ∀ (v : T) (lvl : Nat), textI none lvl v = text v
  | .null, _ | .bool true, _ | .bool false, _ | .int _, _ | .float _, _ | .str _, _ => by simp only [textI, text]
  | .seq [], _ => by simp only [textI, text]
  | .seq (x :: xs), lvl => by simp only [textI, text, gap, List.nil_append, textI_none x, textIL_none xs]
  | .obj [], _ => by simp only [textI, text]
  | .obj ((k, v) :: fs), lvl => by simp only [textI, text, gap, List.nil_append, textI_none v, textIF_none fs]
theorem textIL_none : ∀ (xs : List T) (lvl : Nat), textIL none lvl xs = textL xs
  | [], _ => by simp only [textIL, textL, gap, List.nil_append]
  | x :: xs, lvl => by simp only [textIL, textL, gap', List.singleton_append, textI_none x, textIL_none xs]
theorem textIF_none : ∀ (fs : List (Text × T)) (lvl : Nat), textIF none lvl fs = textF fs
  | [], _ => by simp only [textIF, textF, gap, List.nil_append]
  | (k, v) :: fs, lvl => by simp only [textIF, textF, gap', List.singleton_append, textI_none v, textIF_none fs]
end

/-- **C151** The text under which a request is hashed (C15, C59) is read as the request with its keys sorted and its tuples as lists. -/
theorem C151_dumps {fl : Text → Text} (j : J) (hw : Written fl (canon j)) (w : T) : Loads fl (dumps j) w ↔ w = canon j := by
  have := C151_whole hw none w
  rwa [textI_none] at this

/-- A number that was cut can be another number: the claim is false of files that hold only a number. -/
theorem C151_number_refuted : ∃ (v w : T) (p : Text), Written id v ∧ p <+: textI (some 4) 0 v ∧ p ≠ textI (some 4) 0 v ∧
    Loads id p w ∧ w ≠ v :=
  ⟨.int 12, .int 1, ['1'], .int 12, by simp [textI, intText, digitsRev, Char.ofNat], by simp [textI, intText, digitsRev],
    ⟨1, by rfl⟩, by simp⟩

namespace LoadDemo

/-- An entry of an index: the keys and values of a matrix of 400 points, with a note that needs escapes. -/
def entry : T := .obj [
  ("input".toList, .obj [("grid".toList, .seq [.float "5.0".toList, .float "1e-05".toList]), ("type".toList, .str "regular_ll".toList)]),
  ("output".toList, .obj [("grid".toList, .str "O32".toList)]),
  ("shape".toList, .seq [.int 5248, .int 2664]),
  ("inventory".toList, .null), ("extra".toList, .obj []), ("global".toList, .bool true),
  ("note".toList, .str ['é', '"', '\n', '😀'])]

theorem entry_written : Written id (.obj [("matrix".toList, .obj [("abc-1".toList, entry)])]) := by
  have h1 : FloatTok id "5.0".toList :=
    .inr ⟨rfl, false, ['5'], ['.', '0'], [], rfl, .inr ⟨⟨by simp, by decide⟩, by decide⟩, .inr ⟨['0'], rfl, by simp, by decide⟩, .inl rfl, by simp⟩
  have h2 : FloatTok id "1e-05".toList :=
    .inr ⟨rfl, false, ['1'], [], ['e', '-', '0', '5'], rfl, .inr ⟨⟨by simp, by decide⟩, by decide⟩, .inl rfl,
      .inr ⟨'e', ['-'], ['0', '5'], .inl rfl, .inr (.inl rfl), ⟨by simp, by decide⟩, rfl⟩, by simp⟩
  refine .obj ?_
  simp only [List.mem_singleton, forall_eq]
  refine .obj ?_
  simp only [List.mem_singleton, forall_eq]
  refine .obj ?_
  simp only [List.forall_mem_cons, List.not_mem_nil, false_imp_iff, implies_true, and_true]
  refine ⟨.obj ?_, .obj ?_, .seq ?_, .null, .obj (by simp), .bool _, .str _⟩
  · simp only [List.forall_mem_cons, List.not_mem_nil, false_imp_iff, implies_true, and_true]
    refine ⟨.seq ?_, .str _⟩
    simp only [List.forall_mem_cons, List.not_mem_nil, false_imp_iff, implies_true, and_true]
    exact ⟨.float h1, .float h2⟩
  · simp only [List.forall_mem_cons, List.not_mem_nil, false_imp_iff, implies_true, and_true]
    exact .str _
  · simp only [List.forall_mem_cons, List.not_mem_nil, false_imp_iff, implies_true, and_true]
    exact ⟨.int _, .int _⟩

end LoadDemo

/-- The index of a matrix is written with an indentation of four and read again (`C151_whole`). -/
example : Loads id (textI (some 4) 0 (.obj [("matrix".toList, .obj [("abc-1".toList, LoadDemo.entry)])]))
    (.obj [("matrix".toList, .obj [("abc-1".toList, LoadDemo.entry)])]) :=
  (C151_whole LoadDemo.entry_written (some 4) _).mpr rfl

/-- Without its last character it is refused (`C151_moment`). -/
example (w : T) : ¬ Loads id (textI (some 4) 0 (.obj [("matrix".toList, .obj [("abc-1".toList, LoadDemo.entry)])])).dropLast w := by
  rw [C151_moment LoadDemo.entry_written (by simp [Atom]) (some 4) _ (List.dropLast_prefix _)]
  rintro ⟨h, _⟩
  have := congrArg List.length h
  rw [List.length_dropLast] at this
  simp [textI] at this

/-- The texts of two small values (`C151_whole`, `C151_dumps`). -/
example : String.ofList (textI (some 2) 0 (.obj [("a".toList, .seq [.int 1, .seq []]), ("b".toList, .str ['é'])])) =
    "{\n  \"a\": [\n    1,\n    []\n  ],\n  \"b\": \"\\u00e9\"\n}" := by decide +kernel

example : Loads id (dumps (.obj [("b".toList, .tuple [.int 2, .null]), ("a".toList, .str "x".toList)]))
    (.obj [("a".toList, .str "x".toList), ("b".toList, .seq [.int 2, .null])]) := by
  have hc : canon (.obj [("b".toList, .tuple [.int 2, .null]), ("a".toList, .str "x".toList)]) =
      .obj [("a".toList, .str "x".toList), ("b".toList, .seq [.int 2, .null])] := by
    simp [canon, canonF, canonL, sortFields, insertField, keyLe]
  refine (C151_dumps _ ?_ _).mpr hc.symm
  rw [hc]
  refine .obj ?_
  simp only [List.forall_mem_cons, List.not_mem_nil, false_imp_iff, implies_true, and_true]
  refine ⟨.str _, .seq ?_⟩
  simp only [List.forall_mem_cons, List.not_mem_nil, false_imp_iff, implies_true, and_true]
  exact ⟨.int _, .null⟩

end Verif.Json
