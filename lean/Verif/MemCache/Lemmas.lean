import Verif.MemCache.Spec
import Mathlib.Data.List.Induction

namespace Verif.MemCache

variable {Q K W S : Type}

@[simp] theorem total_nil : total ([] : List (Item K W S)) = 0 := rfl
@[simp] theorem total_cons (a : Item K W S) (l) : total (a :: l) = a.size + total l := by simp [total]
@[simp] theorem total_append (l m : List (Item K W S)) : total (l ++ m) = total l + total m := by
  induction l with
  | nil => simp
  | cons a l ih => simp [ih]; omega

theorem sumSizes_eq (l : List (Item K W S)) : sumSizes l = total l := by
  induction l with
  | nil => rfl
  | cons a l ih => simp [sumSizes, ih]

theorem total_perm {l m : List (Item K W S)} (h : l.Perm m) : total l = total m := by
  induction h with
  | nil => rfl
  | cons _ _ ih => simp [ih]
  | swap => simp; omega
  | trans _ _ i1 i2 => exact i1.trans i2

theorem total_nonneg (l : List (Item K W S)) : 0 ≤ total l := by
  induction l with
  | nil => simp
  | cons a l ih => simp; omega

/-! ### the lru loop -/

/-- `ev` is the sequence of evictions (first evicted first), `kept` what remains, towards target `t`. -/
structure Evicts (t : Int) (items ev kept : List (Item K W S)) : Prop where
  sub : kept.Sublist items
  perm : items.Perm (ev ++ kept)
  done : kept = [] ∨ total kept < t
  need : ∀ e1 a e2, ev = e1 ++ a :: e2 → t ≤ a.size + total e2 + total kept

theorem lruLoop_spec (t : Int) (items : List (Item K W S)) :
    ∃ ev kept, lruLoop t items (total items) = (kept, total kept) ∧ items = ev ++ kept ∧
      Evicts t items ev kept := by
  induction items with
  | nil => exact ⟨[], [], by simp [lruLoop], by simp, ⟨by simp, by simp, by simp, by simp⟩⟩
  | cons it rest ih =>
    by_cases h : t ≤ total (it :: rest)
    · obtain ⟨ev, kept, h1, h2, h3⟩ := ih
      have e : lruLoop t (it :: rest) (total (it :: rest)) = lruLoop t rest (total rest) := by
        rw [lruLoop, if_pos h]; congr 1; simp; omega
      rw [e]
      refine ⟨it :: ev, kept, h1, by simp [h2], ⟨h3.sub.cons _, by simpa using h3.perm, h3.done, ?_⟩⟩
      intro e1 a e2 hev
      cases e1 with
      | nil =>
        simp at hev
        obtain ⟨rfl, rfl⟩ := hev
        rw [h2] at h
        simp at h; omega
      | cons b e1 =>
        simp at hev
        exact h3.need e1 a e2 hev.2
    · have e : lruLoop t (it :: rest) (total (it :: rest)) = (it :: rest, total (it :: rest)) := by
        rw [lruLoop, if_neg h]
      rw [e]
      exact ⟨[], it :: rest, rfl, by simp, ⟨by simp, by simp, Or.inr (by simpa using h), by simp⟩⟩

variable [LinearOrder K]

theorem delKey_sublist (k : K) (l : List (Item K W S)) : (delKey k l).Sublist l :=
  List.eraseP_sublist

theorem pyMax_ge (b : Item K W S) (xs : List (Item K W S)) :
    ∀ x ∈ b :: xs, x.size ≤ (pyMax b xs).size := by
  induction xs generalizing b with
  | nil => simp [pyMax]
  | cons y ys ih =>
    intro x hx
    unfold pyMax
    split
    · rename_i h
      have hby : b.size ≤ y.size := by
        simp [pairLt] at h; omega
      have h0 := ih y y (by simp)
      rcases List.mem_cons.1 hx with rfl | hx
      · omega
      · exact ih y x hx
    · rename_i h
      have hby : y.size ≤ b.size := by
        simp [pairLt] at h; omega
      have h0 := ih b b (by simp)
      rcases List.mem_cons.1 hx with rfl | hx
      · exact h0
      · rcases List.mem_cons.1 hx with rfl | hx
        · omega
        · exact ih b x (List.mem_cons_of_mem _ hx)

theorem eraseP_key_of_nodup (l : List (Item K W S)) (hn : (l.map (·.key)).Nodup) (b : Item K W S) (hb : b ∈ l) :
    ∃ l1 l2, l = l1 ++ b :: l2 ∧ delKey b.key l = l1 ++ l2 := by
  obtain ⟨a, l1, l2, h1, h2, h3, h4⟩ := List.exists_of_eraseP hb (p := fun it => decide (it.key = b.key)) (by simp)
  have : a = b := by
    subst h3
    simp at h2
    simp only [List.mem_append, List.mem_cons] at hb
    rcases hb with hb | rfl | hb
    · exact absurd (h1 b hb) (by simp)
    · rfl
    · rw [List.map_append, List.map_cons, List.nodup_append] at hn
      have := (List.nodup_cons.1 hn.2.1).1
      exact absurd (List.mem_map_of_mem (f := (·.key)) hb) (by rw [← h2]; exact this)
  subst this
  exact ⟨l1, l2, h3, h4⟩

theorem total_delKey (l : List (Item K W S)) (hn : (l.map (·.key)).Nodup) (b : Item K W S) (hb : b ∈ l) :
    total (delKey b.key l) = total l - b.size := by
  obtain ⟨l1, l2, h1, h2⟩ := eraseP_key_of_nodup l hn b hb
  rw [h2, h1]; simp; omega

theorem mem_delKey (l : List (Item K W S)) (hn : (l.map (·.key)).Nodup) (b : Item K W S) (hb : b ∈ l) (a : Item K W S) :
    a ∈ delKey b.key l ↔ a ∈ l ∧ a.key ≠ b.key := by
  obtain ⟨l1, l2, h1, h2⟩ := eraseP_key_of_nodup l hn b hb
  rw [h2, h1]
  rw [h1, List.map_append, List.map_cons, List.nodup_append] at hn
  simp only [List.mem_append, List.mem_cons, List.nodup_cons] at hn ⊢
  constructor
  · rintro (h | h)
    · refine ⟨Or.inl h, fun e => ?_⟩
      exact hn.2.2 a.key (List.mem_map_of_mem (f := (·.key)) h) b.key (by simp) e
    · refine ⟨Or.inr (Or.inr h), fun e => ?_⟩
      exact hn.2.1.1 (by rw [← e]; exact List.mem_map_of_mem (f := (·.key)) h)
  · rintro ⟨h | rfl | h, e⟩
    · exact Or.inl h
    · exact absurd rfl e
    · exact Or.inr h

theorem nodup_delKey (k : K) (l : List (Item K W S)) (hn : (l.map (·.key)).Nodup) :
    ((delKey k l).map (·.key)).Nodup :=
  ((delKey_sublist k l).map _).nodup hn

/-- Everything used about the `largest` loop, started with exact accounting. -/
theorem largestLoop_spec (t : Int) : ∀ (n : Nat) (items : List (Item K W S)), items.length = n →
    (items.map (·.key)).Nodup →
    ∃ ev kept, largestLoop t items (total items) = (kept, total kept) ∧ Evicts t items ev kept ∧
      ∀ e1 a e2, ev = e1 ++ a :: e2 → ∀ b ∈ e2 ++ kept, b.size ≤ a.size := by
  intro n
  induction n with
  | zero =>
    intro items hlen _
    have : items = [] := List.length_eq_zero_iff.1 hlen
    subst this
    exact ⟨[], [], by simp [largestLoop], ⟨by simp, by simp, by simp, by simp⟩, by simp⟩
  | succ n ih =>
    intro items hlen hn
    match items, hlen, hn with
    | x :: xs, hlen, hn =>
      by_cases h : t ≤ total (x :: xs)
      · have hmem := pyMax_mem x xs
        have hge := pyMax_ge x xs
        have htot := total_delKey (x :: xs) hn (pyMax x xs) hmem
        have hnn := total_nonneg (delKey (pyMax x xs).key (x :: xs))
        have e : largestLoop t (x :: xs) (total (x :: xs)) =
            largestLoop t (delKey (pyMax x xs).key (x :: xs)) (total (delKey (pyMax x xs).key (x :: xs))) := by
          rw [largestLoop, if_pos h]
          simp only []
          rw [← htot, if_neg (by omega)]
        have hl : (delKey (pyMax x xs).key (x :: xs)).length = n := by
          unfold delKey
          rw [List.length_eraseP_of_mem hmem (by simp)]
          simp at hlen ⊢; omega
        obtain ⟨ev, kept, i1, i2, i3⟩ := ih _ hl (nodup_delKey _ _ hn)
        have hperm : (x :: xs).Perm (pyMax x xs :: (ev ++ kept)) := by
          obtain ⟨l1, l2, h1, h2⟩ := eraseP_key_of_nodup (x :: xs) hn (pyMax x xs) hmem
          have hp := i2.perm
          rw [h2] at hp
          conv => lhs; rw [h1]
          exact List.perm_middle.trans (hp.cons _)
        refine ⟨pyMax x xs :: ev, kept, by rw [e, i1],
          ⟨i2.sub.trans (delKey_sublist _ _), hperm, i2.done, ?_⟩, ?_⟩
        · intro e1 a e2 hev
          cases e1 with
          | nil =>
            simp at hev
            obtain ⟨rfl, rfl⟩ := hev
            have : total (x :: xs) = total (pyMax x xs :: (ev ++ kept)) := by
              exact total_perm hperm
            rw [this] at h
            simp at h; omega
          | cons b e1 =>
            simp at hev
            exact i2.need e1 a e2 hev.2
        · intro e1 a e2 hev b hb
          cases e1 with
          | nil =>
            simp at hev
            obtain ⟨rfl, rfl⟩ := hev
            exact hge b (hperm.mem_iff.2 (List.mem_cons_of_mem _ hb))
          | cons c e1 =>
            simp at hev
            exact i3 e1 a e2 hev.2 b hb
      · have e : largestLoop t (x :: xs) (total (x :: xs)) = (x :: xs, total (x :: xs)) := by
          rw [largestLoop, if_neg h]
        rw [e]
        exact ⟨[], x :: xs, rfl, ⟨by simp, by simp, Or.inr (by simpa using h), by simp⟩, by simp⟩

omit [LinearOrder K] in
theorem Evicts.none_needed {t : Int} {items ev kept : List (Item K W S)} (h : Evicts t items ev kept)
    (hlt : total items < t) : ev = [] ∧ kept = items := by
  have hev : ev = [] := by
    cases ev with
    | nil => rfl
    | cons a ev =>
      have := h.need [] a ev rfl
      have hp := total_perm h.perm
      simp at hp; omega
  subst hev
  exact ⟨rfl, h.sub.eq_of_length (by simpa using h.perm.length_eq.symm)⟩

/-! ### `_reduce` -/

/-- `_reduce` under a limited policy with a positive limit. -/
theorem reduce_limited (s : Cache K W S) (m : Int) (tgt : Option Int)
    (hp : Limited s.policy) (hm : s.maxMem = some m) (hpos : 0 < m) (hn : (s.items.map (·.key)).Nodup) :
    ∃ ev kept, reduce tgt s = (none, { s with items := kept, currMem := total kept }) ∧
      Evicts (tgt.getD m) s.items ev kept ∧
      (s.policy = .lru → s.items = ev ++ kept) ∧
      (s.policy = .largest → ∀ e1 a e2, ev = e1 ++ a :: e2 → ∀ b ∈ e2 ++ kept, b.size ≤ a.size) := by
  have hnle : ¬ m ≤ 0 := by omega
  have ht : (tgt <|> some m) = some (tgt.getD m) := by
    cases tgt <;> rfl
  rcases hp with hp | hp
  · obtain ⟨ev, kept, h1, h2, h3⟩ := lruLoop_spec (tgt.getD m) s.items
    refine ⟨ev, kept, ?_, h3, fun _ => h2, by simp [hp]⟩
    simp only [reduce, check, hp, hm, if_neg hnle, Policy.hasCache, if_true]
    rw [ht]
    simp only [policyReduce, sumSizes_eq]
    rw [h1]
  · obtain ⟨ev, kept, h1, h3, h4⟩ := largestLoop_spec (tgt.getD m) _ s.items rfl hn
    refine ⟨ev, kept, ?_, h3, by simp [hp], fun _ => h4⟩
    simp only [reduce, check, hp, hm, if_neg hnle, Policy.hasCache, if_true]
    rw [ht]
    simp only [policyReduce, sumSizes_eq]
    rw [h1]

/-- `_reduce` under a limited policy with an unusable limit raises and changes nothing. -/
theorem reduce_limited_bad (s : Cache K W S) (tgt : Option Int)
    (hp : Limited s.policy) (hm : ¬ ∃ m, s.maxMem = some m ∧ 0 < m) :
    ∃ e, reduce tgt s = (some e, s) := by
  rcases hp with hp | hp <;> cases hmm : s.maxMem with
  | none => exact ⟨.typeError, by simp [reduce, check, hp, hmm]⟩
  | some m =>
    have : m ≤ 0 := by
      by_contra h
      exact hm ⟨m, hmm, by omega⟩
    exact ⟨.badLimit, by simp [reduce, check, hp, hmm, this]⟩

theorem reduce_off (s : Cache K W S) (tgt : Option Int) (hp : s.policy = .off) :
    reduce tgt s = (none, clear { s with maxMem := some 0, strict := false }) := by
  simp [reduce, check, hp, Policy.hasCache]

theorem reduce_unlimited (s : Cache K W S) (tgt : Option Int) (hp : s.policy = .unlimited) :
    reduce tgt s = (none, { s with maxMem := none, strict := false, currMem := total s.items }) := by
  simp only [reduce, check, hp, Policy.hasCache, if_true, policyReduce, sumSizes_eq]

/-! ### One lookup, case by case -/

/-- Exact accounting: no key twice, running total equals the sum. -/
def Acc (s : Cache K W S) : Prop := (s.items.map (·.key)).Nodup ∧ s.currMem = total s.items

/-- A sequence of evictions in the order the policy prescribes. -/
structure EvOrder (p : Policy) (items ev kept : List (Item K W S)) : Prop where
  sub : kept.Sublist items
  perm : items.Perm (ev ++ kept)
  lru : p = .lru → items = ev ++ kept
  largest : p = .largest → ∀ e1 a e2, ev = e1 ++ a :: e2 → ∀ b ∈ e2 ++ kept, b.size ≤ a.size

/-- Evictions made before loading: each was needed to make room for the estimate. -/
def PreNeed (src : Source Q W S) (q : Q) (s : Cache K W S) (ev kept : List (Item K W S)) : Prop :=
  ∀ e1 a e2, ev = e1 ++ a :: e2 → ∃ m e, s.maxMem = some m ∧ src.findEntry q = .ok (some e) ∧
    estimate e ≤ m ∧ m - total s.items < estimate e ∧
    m - estimate e ≤ a.size + total e2 + total kept

/-- Case analysis of `get`. -/
inductive GetCase (key : Q → K) (sizeFn : W → Nat) (src : Source Q W S) (q : Q) (s : Cache K W S) :
    Out Q W S → Cache K W S → Prop where
  | off (h : s.policy = .off) : GetCase key sizeFn src q s ⟨src.create q, src.createCalls q⟩ s
  | hit (h : s.policy ≠ .off) (l1 it l2) (hi : s.items = l1 ++ it :: l2) (hk : it.key = key q) :
      GetCase key sizeFn src q s ⟨.ok it.data, []⟩ { s with items := l1 ++ l2 ++ [it], hits := s.hits + 1 }
  | unlErr (h : s.policy = .unlimited) (hm : ¬ Holds s (key q)) (e) (hc : src.create q = .error e) :
      GetCase key sizeFn src q s ⟨.error e, src.createCalls q⟩ s
  | unlNone (h : s.policy = .unlimited) (hm : ¬ Holds s (key q)) (sh) (hc : src.create q = .ok (none, sh)) :
      GetCase key sizeFn src q s ⟨.ok (none, sh), src.createCalls q⟩ { s with misses := s.misses + 1 }
  | unlSome (h : s.policy = .unlimited) (hm : ¬ Holds s (key q)) (w sh) (hc : src.create q = .ok (some w, sh)) :
      GetCase key sizeFn src q s ⟨.ok (some w, sh), src.createCalls q⟩
        { s with
          misses := s.misses + 1
          items := s.items ++ [⟨key q, (some w, sh), sizeFn w⟩]
          currMem := total (s.items ++ [⟨key q, (some w, sh), sizeFn w⟩])
          maxMem := none
          strict := false }
  | limErr (h : Limited s.policy) (hm : ¬ Holds s (key q)) (ev kept) (ho : EvOrder s.policy s.items ev kept)
      (hn : PreNeed src q s ev kept) (e c)
      (hc : src.create q = .error e ∧ c = src.createCalls q ∨ c = [.find q] ∧
        ∃ en, src.findEntry q = .ok (some en) ∧
          (e = .tooLarge ∧ s.strict = true ∧ (∃ m, s.maxMem = some m ∧ m - total kept < estimate en ∧
              (estimate en ≤ m → m - total s.items < estimate en → kept = [])) ∨
            (¬ ∃ m, s.maxMem = some m ∧ 0 < m) ∧ kept = s.items)) :
      GetCase key sizeFn src q s ⟨.error e, c⟩ { s with items := kept, currMem := total kept }
  | limNone (h : Limited s.policy) (hm : ¬ Holds s (key q)) (ev kept) (ho : EvOrder s.policy s.items ev kept)
      (hn : PreNeed src q s ev kept) (sh) (hc : src.create q = .ok (none, sh)) :
      GetCase key sizeFn src q s ⟨.ok (none, sh), src.createCalls q⟩
        { s with misses := s.misses + 1, items := kept, currMem := total kept }
  | limSome (h : Limited s.policy) (hm : ¬ Holds s (key q)) (ev kept) (ho : EvOrder s.policy s.items ev kept)
      (hn : PreNeed src q s ev kept) (w sh) (hc : src.create q = .ok (some w, sh)) (m) (hmm : s.maxMem = some m)
      (hpos : 0 < m) (ev2 kept2)
      (ho2 : EvOrder s.policy (kept ++ [⟨key q, (some w, sh), sizeFn w⟩]) ev2 kept2)
      (he2 : Evicts m (kept ++ [⟨key q, (some w, sh), sizeFn w⟩]) ev2 kept2)
      (hst : ∀ e, src.findEntry q = .ok (some e) → s.strict = true → estimate e ≤ m - total kept) :
      GetCase key sizeFn src q s ⟨.ok (some w, sh), src.createCalls q⟩
        { s with misses := s.misses + 1, items := kept2, currMem := total kept2 }
  | limBad (h : Limited s.policy) (hm : ¬ Holds s (key q)) (w sh) (hc : src.create q = .ok (some w, sh))
      (hbad : ¬ ∃ m, s.maxMem = some m ∧ 0 < m) (e) :
      GetCase key sizeFn src q s ⟨.error e, src.createCalls q⟩
        { s with
          misses := s.misses + 1
          items := s.items ++ [⟨key q, (some w, sh), sizeFn w⟩]
          currMem := total (s.items ++ [⟨key q, (some w, sh), sizeFn w⟩]) }

omit [LinearOrder K] in
theorem EvOrder.refl (p : Policy) (items : List (Item K W S)) : EvOrder p items [] items :=
  ⟨List.Sublist.refl _, by simp, by simp, by simp⟩

omit [LinearOrder K] in
theorem PreNeed.nil (src : Source Q W S) (q : Q) (s : Cache K W S) (kept) : PreNeed src q s [] kept := by
  intro e1 a e2 h; simp at h

/-- Case analysis of `createWithPreCheck`. -/
theorem precheck_cases (src : Source Q W S) (q : Q) (s : Cache K W S) (hacc : Acc s) (hp : Limited s.policy) :
    ∃ o ev kept, createWithPreCheck src q s = (o, { s with items := kept, currMem := total kept }) ∧
      EvOrder s.policy s.items ev kept ∧ PreNeed src q s ev kept ∧
      ((¬ ∃ m, s.maxMem = some m ∧ 0 < m) → kept = s.items) ∧
      ((o = ⟨src.create q, src.createCalls q⟩ ∧
          (∀ e m, src.findEntry q = .ok (some e) → s.maxMem = some m → s.strict = true →
            estimate e ≤ m - total kept)) ∨
        ∃ e en, o = ⟨.error e, [.find q]⟩ ∧ src.findEntry q = .ok (some en) ∧
          (e = .tooLarge ∧ s.strict = true ∧ (∃ m, s.maxMem = some m ∧ m - total kept < estimate en ∧
              (estimate en ≤ m → m - total s.items < estimate en → kept = [])) ∨
            (¬ ∃ m, s.maxMem = some m ∧ 0 < m) ∧ kept = s.items)) := by
  obtain ⟨hn, hcur⟩ := hacc
  have hs : s = { s with items := s.items, currMem := total s.items } := by rw [← hcur]
  unfold createWithPreCheck
  cases hf : src.findEntry q with
  | error e =>
    refine ⟨_, [], s.items, by rw [← hs], EvOrder.refl _ _, PreNeed.nil _ _ _ _, fun _ => rfl, Or.inl ⟨?_, ?_⟩⟩
    · simp [Source.create, Source.createCalls, hf]
    · intro e m h; simp at h
  | ok eo =>
    cases eo with
    | none =>
      refine ⟨_, [], s.items, by rw [← hs], EvOrder.refl _ _, PreNeed.nil _ _ _ _, fun _ => rfl, Or.inl ⟨?_, ?_⟩⟩
      · simp [Source.create, Source.createCalls, hf]
      · intro e m h; simp at h
    | some en =>
      cases hmm : s.maxMem with
      | none =>
        rw [hmm] at hs
        refine ⟨_, [], s.items, Prod.ext rfl hs, EvOrder.refl _ _, PreNeed.nil _ _ _ _, fun _ => rfl,
          Or.inr ⟨_, en, rfl, rfl, Or.inr ⟨by simp, rfl⟩⟩⟩
      | some m =>
        simp only []
        by_cases hc : m - s.currMem < estimate en ∧ estimate en ≤ m
        · rw [if_pos hc]
          by_cases hpos : 0 < m
          · obtain ⟨ev, kept, h1, h2, h3, h4⟩ := reduce_limited s m (some (m - estimate en)) hp hmm hpos hn
            rw [h1]
            have hpre : PreNeed src q s ev kept := by
              intro e1 a e2 hev
              refine ⟨m, en, hmm, hf, hc.2, by rw [← hcur]; exact hc.1, ?_⟩
              have := h2.need e1 a e2 hev
              simpa using this
            have hcap : kept = [] ∨ ¬ (m - total kept < estimate en) := by
              rcases h2.done with h | h
              · exact Or.inl h
              · right; simp at h; omega
            simp only []
            by_cases hst : s.strict = true ∧ m - total kept < estimate en
            · rw [if_pos hst]
              refine ⟨_, ev, kept, by rw [← hmm], ⟨h2.sub, h2.perm, h3, h4⟩, hpre, fun h => absurd ⟨m, rfl, hpos⟩ h,
                Or.inr ⟨_, en, rfl, rfl, Or.inl ⟨rfl, hst.1, m, rfl, hst.2, ?_⟩⟩⟩
              intro _ _
              rcases hcap with h | h
              · exact h
              · exact absurd hst.2 h
            · rw [if_neg hst]
              refine ⟨_, ev, kept, by rw [← hmm], ⟨h2.sub, h2.perm, h3, h4⟩, hpre, fun h => absurd ⟨m, rfl, hpos⟩ h,
                Or.inl ⟨?_, ?_⟩⟩
              · simp [Source.create, Source.createCalls, hf]
              · intro e m' he hm' hs'
                simp at he hm'
                subst he hm'
                by_contra hcon
                exact hst ⟨hs', by omega⟩
          · have hbad : ¬ ∃ m, s.maxMem = some m ∧ 0 < m := by
              rw [hmm]; simpa using hpos
            obtain ⟨e, he⟩ := reduce_limited_bad s (some (m - estimate en)) hp hbad
            rw [he]
            refine ⟨_, [], s.items, by rw [← hmm, ← hs], EvOrder.refl _ _, PreNeed.nil _ _ _ _, fun _ => rfl,
              Or.inr ⟨_, en, rfl, rfl, Or.inr ⟨by rw [hmm] at hbad; exact hbad, rfl⟩⟩⟩
        · rw [if_neg hc]
          simp only []
          by_cases hst : s.strict = true ∧ m - s.currMem < estimate en
          · rw [if_pos hst]
            refine ⟨_, [], s.items, by rw [← hmm, ← hs], EvOrder.refl _ _, PreNeed.nil _ _ _ _, fun _ => rfl,
              Or.inr ⟨_, en, rfl, rfl, Or.inl ⟨rfl, hst.1, m, rfl, by rw [← hcur]; exact hst.2, ?_⟩⟩⟩
            intro h1 h2
            exact absurd ⟨by rw [hcur]; exact h2, h1⟩ hc
          · rw [if_neg hst]
            refine ⟨_, [], s.items, by rw [← hmm, ← hs], EvOrder.refl _ _, PreNeed.nil _ _ _ _, fun _ => rfl,
              Or.inl ⟨?_, ?_⟩⟩
            · simp [Source.create, Source.createCalls, hf]
            · intro e m' he hm' hs'
              simp at he hm'
              subst he hm'
              by_contra hcon
              exact hst ⟨hs', by omega⟩

theorem find_none_iff (s : Cache K W S) (k : K) :
    s.items.find? (fun it => decide (it.key = k)) = none ↔ ¬ Holds s k := by
  simp [Holds]

/-- Every call of `get` on a state with exact accounting is one of the cases. -/
theorem get_cases (key : Q → K) (sizeFn : W → Nat) (src : Source Q W S) (q : Q) (s : Cache K W S)
    (hacc : Acc s) : GetCase key sizeFn src q s (get key sizeFn src q s).1 (get key sizeFn src q s).2 := by
  by_cases hoff : s.policy = .off
  · simp only [get, hoff, Policy.hasCache]
    exact .off hoff
  have hc : s.policy.hasCache = true := by cases h : s.policy <;> simp_all [Policy.hasCache]
  cases hfind : s.items.find? (fun it => decide (it.key = key q)) with
  | some it =>
    obtain ⟨hk, l1, l2, h1, h2⟩ := List.find?_eq_some_iff_append.1 hfind
    simp at hk
    have hg : get key sizeFn src q s =
        (⟨.ok it.data, []⟩, { s with items := l1 ++ l2 ++ [it], hits := s.hits + 1 }) := by
      simp only [get, hc, if_true, hfind, moveToEnd]
      have : delKey (key q) s.items = l1 ++ l2 := by
        obtain ⟨m1, m2, g1, g2⟩ := eraseP_key_of_nodup s.items hacc.1 it (by rw [h1]; simp)
        rw [← hk, g2]
        unfold delKey at g2
        rw [h1] at g2
        rw [List.eraseP_append_right] at g2
        · simp at g2
          exact g2.symm
        · intro b hb
          have := h2 b hb
          simp at this ⊢
          rw [hk]; exact this
      rw [this]
    rw [hg]
    exact .hit hoff l1 it l2 h1 hk
  | none =>
    have hnot := (find_none_iff s (key q)).1 hfind
    by_cases hul : s.policy = .unlimited
    · have hl : s.policy.hasLimit = false := by rw [hul]; rfl
      cases hcr : src.create q with
      | error e =>
        have hg : get key sizeFn src q s = (⟨.error e, src.createCalls q⟩, s) := by
          simp only [get, hc, if_true, hfind, hl, hcr]
          rfl
        rw [hg]; exact .unlErr hul hnot e hcr
      | ok d =>
        obtain ⟨wo, sh⟩ := d
        cases wo with
        | none =>
          have hg : get key sizeFn src q s =
              (⟨.ok (none, sh), src.createCalls q⟩, { s with misses := s.misses + 1 }) := by
            simp only [get, hc, if_true, hfind, hl, hcr]
            rfl
          rw [hg]; exact .unlNone hul hnot sh hcr
        | some w =>
          have hg : get key sizeFn src q s = (⟨.ok (some w, sh), src.createCalls q⟩,
              { s with
                misses := s.misses + 1
                items := s.items ++ [⟨key q, (some w, sh), sizeFn w⟩]
                currMem := total (s.items ++ [⟨key q, (some w, sh), sizeFn w⟩])
                maxMem := none
                strict := false }) := by
            simp only [get, hc, if_true, hfind, hl, hcr, Bool.false_eq_true, if_false]
            rw [reduce_unlimited
              ({ s with
                misses := s.misses + 1
                items := s.items ++ [⟨key q, (some w, sh), sizeFn w⟩]
                currMem := s.currMem + (sizeFn w : Int) } : Cache K W S) none hul]
          rw [hg]; exact .unlSome hul hnot w sh hcr
    · have hlim : Limited s.policy := by
        cases h : s.policy <;> simp_all [Limited]
      have hl : s.policy.hasLimit = true := by rcases hlim with h | h <;> rw [h] <;> rfl
      obtain ⟨o, ev, kept, h1, ho, hpre, hb, hcase⟩ := precheck_cases src q s hacc hlim
      rcases hcase with ⟨rfl, hst⟩ | ⟨e, en, rfl, hen, hx⟩
      · cases hcr : src.create q with
        | error e =>
          have hg : get key sizeFn src q s =
              (⟨.error e, src.createCalls q⟩, { s with items := kept, currMem := total kept }) := by
            simp only [get, hc, if_true, hfind, hl, h1, hcr]
          rw [hg]; exact .limErr hlim hnot ev kept ho hpre e _ (Or.inl ⟨hcr, rfl⟩)
        | ok d =>
          obtain ⟨wo, sh⟩ := d
          cases wo with
          | none =>
            have hg : get key sizeFn src q s = (⟨.ok (none, sh), src.createCalls q⟩,
                { s with misses := s.misses + 1, items := kept, currMem := total kept }) := by
              simp only [get, hc, if_true, hfind, hl, h1, hcr]
            rw [hg]; exact .limNone hlim hnot ev kept ho hpre sh hcr
          | some w =>
            have hnd : ((kept ++ [(⟨key q, (some w, sh), sizeFn w⟩ : Item K W S)]).map (·.key)).Nodup := by
              rw [List.map_append, List.nodup_append]
              refine ⟨(ho.sub.map _).nodup hacc.1, by simp, ?_⟩
              intro a ha b hb' hab
              simp at ha hb'
              obtain ⟨x, hx, rfl⟩ := ha
              exact hnot ⟨x, ho.sub.subset hx, hab.trans hb'⟩
            by_cases hbad : ∃ m, s.maxMem = some m ∧ 0 < m
            · obtain ⟨m, hmm, hpos⟩ := hbad
              obtain ⟨ev2, kept2, r1, r2, r3, r4⟩ := reduce_limited
                ({ s with
                  misses := s.misses + 1
                  items := kept ++ [⟨key q, (some w, sh), sizeFn w⟩]
                  currMem := total kept + (sizeFn w : Int) } : Cache K W S) m none hlim hmm hpos hnd
              have hg : get key sizeFn src q s = (⟨.ok (some w, sh), src.createCalls q⟩,
                  { s with misses := s.misses + 1, items := kept2, currMem := total kept2 }) := by
                simp only [get, hc, if_true, hfind, hl, h1, hcr]
                rw [r1]
              rw [hg]
              exact .limSome hlim hnot ev kept ho hpre w sh hcr m hmm hpos ev2 kept2
                ⟨r2.sub, r2.perm, r3, r4⟩ r2 (fun e he hs' => hst e m he hmm hs')
            · obtain ⟨e, he⟩ := reduce_limited_bad
                ({ s with
                  misses := s.misses + 1
                  items := kept ++ [⟨key q, (some w, sh), sizeFn w⟩]
                  currMem := total kept + (sizeFn w : Int) } : Cache K W S) none hlim hbad
              have hk := hb hbad
              have hg : get key sizeFn src q s = (⟨.error e, src.createCalls q⟩,
                  { s with
                    misses := s.misses + 1
                    items := s.items ++ [⟨key q, (some w, sh), sizeFn w⟩]
                    currMem := total (s.items ++ [⟨key q, (some w, sh), sizeFn w⟩]) }) := by
                simp only [get, hc, if_true, hfind, hl, h1, hcr]
                rw [he, hk]
                simp
              rw [hg]; exact .limBad hlim hnot w sh hcr hbad e
      · have hg : get key sizeFn src q s =
            (⟨.error e, [.find q]⟩, { s with items := kept, currMem := total kept }) := by
          simp only [get, hc, if_true, hfind, hl, h1]
        rw [hg]; exact .limErr hlim hnot ev kept ho hpre e _ (Or.inr ⟨rfl, en, hen, hx⟩)

/-! ### Reconfiguration, case by case -/

inductive UpdateCase (cfg : Cfg) (s : Cache K W S) : Option Err × Cache K W S → Prop where
  /-- nothing evicted: nothing changed, or something raised, or the policy is unlimited -/
  | same (e s') (hi : s'.items = s.items) (hc : s'.currMem = s.currMem) (hh : s'.hits = s.hits)
      (hm : s'.misses = s.misses) (hoff : s'.policy = .off → s.policy = .off)
      (hv : cfg.Valid → e = none ∧ (Limited s'.policy → s'.maxMem = s.maxMem ∧ s'.policy = s.policy)) :
      UpdateCase cfg s (e, s')
  | off (s') (hp : s'.policy = .off) (hi : s'.items = []) (hc : s'.currMem = 0) (hh : s'.hits = 0)
      (hm : s'.misses = 0) : UpdateCase cfg s (none, s')
  | evict (s') (hp : Limited s'.policy) (m) (hm : s'.maxMem = some m) (hpos : 0 < m) (ev kept)
      (he : Evicts m s.items ev kept) (ho : EvOrder s'.policy s.items ev kept) (hi : s'.items = kept)
      (hc : s'.currMem = total kept) (hh : s'.hits = s.hits) (hmi : s'.misses = s.misses) :
      UpdateCase cfg s (none, s')

/-- `_reduce` after the assignments of `update`. -/
theorem update_reduce (cfg : Cfg) (s s2 : Cache K W S) (hacc : Acc s) (hi : s2.items = s.items)
    (hc : s2.currMem = s.currMem) (hh : s2.hits = s.hits) (hm : s2.misses = s.misses)
    (hv : cfg.Valid → Limited s2.policy → ∃ m, s2.maxMem = some m ∧ 0 < m) :
    UpdateCase cfg s (reduce none s2) := by
  cases hp : s2.policy with
  | off =>
    rw [reduce_off s2 none hp]
    exact .off _ hp rfl rfl rfl rfl
  | unlimited =>
    rw [reduce_unlimited s2 none hp]
    refine .same _ _ hi ?_ hh hm ?_ ?_
    · simp only; rw [hi]; exact hacc.2.symm
    · intro h; simp [hp] at h
    · intro _; refine ⟨rfl, ?_⟩
      intro h; simp [Limited, hp] at h
  | lru | largest =>
    have hlim : Limited s2.policy := by simp [Limited, hp]
    by_cases hb : ∃ m, s2.maxMem = some m ∧ 0 < m
    · obtain ⟨m, hmm, hpos⟩ := hb
      obtain ⟨ev, kept, h1, h2, h3, h4⟩ := reduce_limited s2 m none hlim hmm hpos (by rw [hi]; exact hacc.1)
      rw [h1]
      rw [hi] at h2 h3
      exact .evict _ hlim m hmm hpos ev kept h2 ⟨h2.sub, h2.perm, h3, h4⟩ rfl rfl hh hm
    · obtain ⟨e, he⟩ := reduce_limited_bad s2 none hlim hb
      rw [he]
      refine .same _ _ hi hc hh hm ?_ ?_
      · intro h; rw [hp] at h; cases h
      · intro hval; exact absurd (hv hval hlim) hb

theorem update_cases (cfg : Cfg) (s : Cache K W S) (hacc : Acc s) : UpdateCase cfg s (update cfg s) := by
  unfold update updateAssign
  cases hv : cfg.maxMem with
  | none =>
    refine .same _ _ rfl rfl rfl rfl id ?_
    rintro ⟨v, p, h, _⟩; rw [hv] at h; cases h
  | some v =>
    cases hp : cfg.policy with
    | none =>
      refine .same _ _ rfl rfl rfl rfl id ?_
      rintro ⟨v, p, _, h, _⟩; rw [hp] at h; cases h
    | some p =>
      have hval : cfg.Valid → (p = .lru ∨ p = .largest → ∃ m, v = some m ∧ 0 < m) := by
        rintro ⟨v', p', h1, h2, h3⟩
        rw [hv] at h1; rw [hp] at h2
        cases h1; cases h2; exact h3
      simp only []
      by_cases hsame : s.policy = p
      · rw [if_pos hsame]
        simp only []
        by_cases hch : (decide (s.maxMem ≠ v) || decide (s.strict ≠ cfg.strict)) = true
        · rw [hch]
          simp only [updateFinish]
          refine update_reduce cfg s _ hacc rfl rfl rfl rfl ?_
          intro hcv hl
          simp only at hl ⊢
          rw [hsame] at hl
          exact hval hcv hl
        · rw [Bool.not_eq_true] at hch
          rw [hch]
          simp only [updateFinish]
          refine .same _ _ rfl rfl rfl rfl id ?_
          intro _
          refine ⟨rfl, fun _ => ⟨?_, rfl⟩⟩
          simp at hch
          exact hch.1.symm
      · rw [if_neg hsame]
        cases p with
        | off =>
          simp only [check, updateFinish]
          exact update_reduce cfg s _ hacc rfl rfl rfl rfl (by intro _ h; simp [Limited] at h)
        | unlimited =>
          simp only [check, updateFinish]
          exact update_reduce cfg s _ hacc rfl rfl rfl rfl (by intro _ h; simp [Limited] at h)
        | lru | largest =>
          cases v with
          | none =>
            simp only [check, updateFinish]
            refine .same _ _ rfl rfl rfl rfl id ?_
            intro hcv
            obtain ⟨m, h, _⟩ := hval hcv (by simp)
            cases h
          | some m =>
            simp only [check]
            by_cases hle : m ≤ 0
            · simp only [if_pos hle, updateFinish]
              refine .same _ _ rfl rfl rfl rfl id ?_
              intro hcv
              obtain ⟨m', h, h'⟩ := hval hcv (by simp)
              cases h; omega
            · simp only [if_neg hle, updateFinish]
              exact update_reduce cfg s _ hacc rfl rfl rfl rfl (by intro _ _; exact ⟨m, rfl, by omega⟩)

/-! ### Invariants -/

omit [LinearOrder K] in
theorem Acc.clear (s : Cache K W S) : Acc (clear s) := by simp [Acc, MemCache.clear]

omit [LinearOrder K] in
theorem nodup_sub {items kept : List (Item K W S)} (h : kept.Sublist items) (hn : (items.map (·.key)).Nodup) :
    (kept.map (·.key)).Nodup := (h.map _).nodup hn

omit [LinearOrder K] in
theorem nodup_snoc {items : List (Item K W S)} (hn : (items.map (·.key)).Nodup) (it : Item K W S)
    (hnot : ∀ x ∈ items, x.key ≠ it.key) : ((items ++ [it]).map (·.key)).Nodup := by
  rw [List.map_append, List.nodup_append]
  refine ⟨hn, by simp, ?_⟩
  intro a ha b hb hab
  simp at ha hb
  obtain ⟨x, hx, rfl⟩ := ha
  exact hnot x hx (hab.trans hb)

theorem get_acc (key : Q → K) (sizeFn : W → Nat) (src : Source Q W S) (q : Q) (s : Cache K W S)
    (hacc : Acc s) : Acc (get key sizeFn src q s).2 := by
  have h := get_cases key sizeFn src q s hacc
  generalize (get key sizeFn src q s).1 = o at h
  generalize (get key sizeFn src q s).2 = s' at h
  cases h with
  | off => exact hacc
  | hit _ l1 it l2 hi _ =>
    have hn := hacc.1
    have hc := hacc.2
    rw [hi] at hn hc
    have hperm : (l1 ++ it :: l2).Perm (l1 ++ l2 ++ [it]) := by
      rw [List.append_assoc]
      exact (List.perm_append_left_iff l1).2 (List.perm_append_singleton it l2).symm
    exact ⟨(hperm.map _).nodup_iff.1 hn, hc.trans (total_perm hperm)⟩
  | unlErr => exact hacc
  | unlNone => exact hacc
  | unlSome h hm w sh hc =>
    exact ⟨nodup_snoc hacc.1 _ (fun x hx e => hm ⟨x, hx, e⟩), rfl⟩
  | limErr h hm ev kept ho => exact ⟨nodup_sub ho.sub hacc.1, rfl⟩
  | limNone h hm ev kept ho => exact ⟨nodup_sub ho.sub hacc.1, rfl⟩
  | limSome h hm ev kept ho hn w sh hc m hmm hpos ev2 kept2 ho2 he2 =>
    exact ⟨nodup_sub ho2.sub (nodup_snoc (nodup_sub ho.sub hacc.1) _
      (fun x hx e => hm ⟨x, ho.sub.subset hx, e⟩)), rfl⟩
  | limBad h hm w sh hc =>
    exact ⟨nodup_snoc hacc.1 _ (fun x hx e => hm ⟨x, hx, e⟩), rfl⟩

theorem update_acc (cfg : Cfg) (s : Cache K W S) (hacc : Acc s) : Acc (update cfg s).2 := by
  have h := update_cases cfg s hacc
  generalize update cfg s = r at h
  cases h with
  | same e s' hi hc => simp only [Acc]; rw [hi, hc]; exact hacc
  | off s' hp hi hc => simp only [Acc]; rw [hi, hc]; simp
  | evict s' hp m hm hpos ev kept he ho hi hc =>
    simp only [Acc]; rw [hi, hc]; exact ⟨nodup_sub ho.sub hacc.1, rfl⟩

theorem step_acc (key : Q → K) (sizeFn : W → Nat) (s : Cache K W S) (op : Op Q W S) (hacc : Acc s) :
    Acc (step key sizeFn s op).2 := by
  cases op with
  | get src q => exact get_acc key sizeFn src q s hacc
  | update cfg => exact update_acc cfg s hacc
  | clear => exact Acc.clear s

omit [LinearOrder K] in
theorem initial_acc : Acc (initial : Cache K W S) := by simp [Acc, initial]

theorem run_snoc (key : Q → K) (sizeFn : W → Nat) (s : Cache K W S) (ops : List (Op Q W S)) (op : Op Q W S) :
    run key sizeFn s (ops ++ [op]) = (step key sizeFn (run key sizeFn s ops) op).2 := by
  simp [run]

theorem run_append (key : Q → K) (sizeFn : W → Nat) (s : Cache K W S) (ops ops' : List (Op Q W S)) :
    run key sizeFn s (ops ++ ops') = run key sizeFn (run key sizeFn s ops) ops' := by
  simp [run]

/-- induction over histories from the right -/
theorem run_ind (key : Q → K) (sizeFn : W → Nat) (s : Cache K W S) (P : List (Op Q W S) → Cache K W S → Prop)
    (h0 : P [] s) (hs : ∀ ops op, P ops (run key sizeFn s ops) →
      P (ops ++ [op]) (step key sizeFn (run key sizeFn s ops) op).2) (ops) : P ops (run key sizeFn s ops) := by
  induction ops using List.reverseRecOn with
  | nil => exact h0
  | append_singleton ops op ih =>
    rw [run_snoc]; exact hs ops op ih

theorem run_acc (key : Q → K) (sizeFn : W → Nat) (ops : List (Op Q W S)) :
    Acc (run key sizeFn (initial : Cache K W S) ops) :=
  run_ind key sizeFn _ (fun _ s => Acc s) initial_acc (fun _ _ h => step_acc key sizeFn _ _ h) ops

/-- A get never changes the policy, and changes the limit only to `None` under unlimited. -/
theorem get_policy (key : Q → K) (sizeFn : W → Nat) (src : Source Q W S) (q : Q) (s : Cache K W S)
    (hacc : Acc s) : (get key sizeFn src q s).2.policy = s.policy ∧
      (s.policy ≠ .unlimited → (get key sizeFn src q s).2.maxMem = s.maxMem) := by
  have h := get_cases key sizeFn src q s hacc
  generalize (get key sizeFn src q s).1 = o at h
  generalize (get key sizeFn src q s).2 = s' at h
  cases h <;> simp_all

/-- The size bound. -/
def Bound (s : Cache K W S) : Prop :=
  Limited s.policy → ∃ m, s.maxMem = some m ∧ 0 < m ∧ s.currMem < m

omit [LinearOrder K] in
theorem total_le_of_perm {items ev kept : List (Item K W S)} (h : items.Perm (ev ++ kept)) :
    total kept ≤ total items := by
  have := total_nonneg ev
  rw [total_perm h]; simp; omega

theorem get_bound (key : Q → K) (sizeFn : W → Nat) (src : Source Q W S) (q : Q) (s : Cache K W S)
    (hacc : Acc s) (hb : Bound s) : Bound (get key sizeFn src q s).2 := by
  intro hlim
  have hpol := get_policy key sizeFn src q s hacc
  rw [hpol.1] at hlim
  obtain ⟨m, hm, hpos, hlt⟩ := hb hlim
  have hne : s.policy ≠ .unlimited := by rcases hlim with h | h <;> rw [h] <;> simp
  refine ⟨m, (hpol.2 hne).trans hm, hpos, ?_⟩
  have hcur := hacc.2
  have h := get_cases key sizeFn src q s hacc
  generalize (get key sizeFn src q s).1 = o at h
  generalize (get key sizeFn src q s).2 = s' at h
  cases h with
  | off => exact hlt
  | hit => exact hlt
  | unlErr h => exact absurd h hne
  | unlNone h => exact absurd h hne
  | unlSome h => exact absurd h hne
  | limErr h hm' ev kept ho => have := total_le_of_perm ho.perm; simp only; omega
  | limNone h hm' ev kept ho => have := total_le_of_perm ho.perm; simp only; omega
  | limSome h hm' ev kept ho hn w sh hc m' hmm hpos' ev2 kept2 ho2 he2 =>
    rw [hm] at hmm; cases hmm
    rcases he2.done with h | h
    · simp [h]; omega
    · exact h
  | limBad h hm' w sh hc hbad => exact absurd ⟨m, hm, hpos⟩ hbad

theorem update_bound (cfg : Cfg) (s : Cache K W S) (hacc : Acc s) (hb : Bound s) (hv : cfg.Valid) :
    Bound (update cfg s).2 := by
  have h := update_cases cfg s hacc
  generalize update cfg s = r at h
  cases h with
  | same e s' hi hc hh hm hoff hval =>
    intro hlim
    obtain ⟨_, h2⟩ := hval hv
    obtain ⟨h3, h4⟩ := h2 hlim
    simp only at hlim ⊢
    rw [h4] at hlim
    rw [h3, hc]
    exact hb hlim
  | off s' hp => intro hlim; simp [Limited, hp] at hlim
  | evict s' hp m hm hpos ev kept he ho hi hc =>
    intro _
    refine ⟨m, hm, hpos, ?_⟩
    simp only
    rw [hc]
    rcases he.done with h | h
    · simp [h]; omega
    · exact h

/-- With policy off the cache is empty and the counters are 0. -/
def OffEmpty (s : Cache K W S) : Prop :=
  s.policy = .off → s.items = [] ∧ s.hits = 0 ∧ s.misses = 0

theorem step_offEmpty (key : Q → K) (sizeFn : W → Nat) (s : Cache K W S) (op : Op Q W S) (hacc : Acc s)
    (h : OffEmpty s) : OffEmpty (step key sizeFn s op).2 := by
  cases op with
  | get src q =>
    intro hoff
    simp only [step] at hoff ⊢
    rw [(get_policy key sizeFn src q s hacc).1] at hoff
    have : get key sizeFn src q s = (⟨src.create q, src.createCalls q⟩, s) := by
      simp [get, hoff, Policy.hasCache]
    rw [this]; exact h hoff
  | update cfg =>
    have hc := update_cases cfg s hacc
    simp only [step]
    generalize update cfg s = r at hc
    cases hc with
    | same e s' hi hc hh hm hoff hval =>
      intro hp
      simp only
      rw [hi, hh, hm]; exact h (hoff hp)
    | off s' hp hi hc hh hm => intro _; exact ⟨hi, hh, hm⟩
    | evict s' hp => intro h'; simp only at h'; simp [Limited, h'] at hp
  | clear => intro _; simp [step, clear]

end Verif.MemCache
