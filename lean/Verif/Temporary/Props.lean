import Verif.Temporary.Model

/-!
# Temporary files (C127)

Specification: nobody else touches the path of an object (`Undisturbed`); which files an object made and removed is in the log.
-/

namespace Verif.Temporary

/-! ## Specification -/

/-- Somebody else makes or removes a file at a path an object has. -/
def Disturbs (s : Sys) : Act → Prop
  | .make p | .remove p => ∃ (i : Nat) (o : Obj), s.objs[i]? = some o ∧ o.path = some p
  | _ => False

def Undisturbed (s : Sys) (h : List Act) : Prop := ∀ pre a post, h = pre ++ a :: post → ¬ Disturbs (s.run pre) a

/-- How many files an object has removed. -/
def removals (log : List Event) (i : Nat) : Nat :=
  log.countP (fun e => match e with | .removed j _ => j == i | _ => false)

/-! ## Lemmas -/

def isRemoval (i : Nat) (e : Event) : Bool := match e with | .removed j _ => j == i | _ => false

theorem removals_append (l : List Event) (e : Event) (i : Nat) :
    removals (l ++ [e]) i = removals l i + if isRemoval i e then 1 else 0 := by
  unfold removals
  rw [List.countP_append, List.countP_singleton]
  rfl

/-- An object that has removed a file has forgotten the path. -/
structure Once (s : Sys) : Prop where
  le : ∀ i, removals s.log i ≤ 1
  path : ∀ i (o : Obj), s.objs[i]? = some o → o.path ≠ none → removals s.log i = 0
  none : ∀ i, s.objs.length ≤ i → removals s.log i = 0

theorem Once.cleanup {s : Sys} (h : Once s) (i : Nat) : Once (s.cleanup i) := by
  unfold Sys.cleanup
  split
  · exact h
  · rename_i o ho
    split
    · exact h
    · rename_i p hp
      have hz := h.path i o ho (by rw [hp]; simp)
      have hlt : i < s.objs.length := (List.getElem?_eq_some_iff.mp ho).1
      split
      · have e : ∀ j, removals (s.log ++ [Event.raised i]) j = removals s.log j := by
          intro j; rw [removals_append]; rfl
        exact ⟨fun j => by rw [e]; exact h.le j, fun j o hj hn => by rw [e]; exact h.path j o hj hn, fun j hj => by rw [e]; exact h.none j hj⟩
      · rename_i f hf
        have e : ∀ j, removals (s.log ++ [Event.removed i f]) j = removals s.log j + if i = j then 1 else 0 := by
          intro j; rw [removals_append]
          show _ + (if (i == j) = true then 1 else 0) = _
          simp
        refine ⟨fun j => ?_, fun j o' hj hn => ?_, fun j hj => ?_⟩
        · show removals (s.log ++ [Event.removed i f]) j ≤ 1
          rw [e]
          split
          · rename_i hij; subst hij; omega
          · have := h.le j; omega
        · show removals (s.log ++ [Event.removed i f]) j = 0
          have hj : (s.objs.set i { o with path := Option.none })[j]? = some o' := hj
          rw [e]
          by_cases hij : i = j
          · subst hij
            rw [List.getElem?_set_self hlt] at hj
            obtain rfl := Option.some.inj hj
            exact absurd rfl hn
          · rw [List.getElem?_set_ne hij] at hj
            rw [if_neg hij, h.path j o' hj hn]
        · show removals (s.log ++ [Event.removed i f]) j = 0
          have hj : (s.objs.set i { o with path := Option.none }).length ≤ j := hj
          rw [List.length_set] at hj
          rw [e, if_neg (by omega), h.none j hj]

theorem Once.setAlive {s : Sys} (h : Once s) (i : Nat) (o : Obj) (ho : s.objs[i]? = some o) :
    Once { s with objs := s.objs.set i { o with alive := false } } := by
  have hlt : i < s.objs.length := (List.getElem?_eq_some_iff.mp ho).1
  refine ⟨h.le, fun j o' hj hn => ?_, fun j hj => h.none j (by simpa using hj)⟩
  have hj : (s.objs.set i { o with alive := false })[j]? = some o' := hj
  by_cases hij : i = j
  · subst hij
    rw [List.getElem?_set_self hlt] at hj
    obtain rfl := Option.some.inj hj
    exact h.path i o ho hn
  · rw [List.getElem?_set_ne hij] at hj
    exact h.path j o' hj hn

theorem Once.act {s : Sys} (h : Once s) (a : Act) : Once (s.act a) := by
  cases a with
  | tempFile p =>
    show Once (s.tempFile p)
    unfold Sys.tempFile
    split
    · exact h
    · have e : ∀ j, removals (s.log ++ [Event.made s.objs.length s.nextFile]) j = removals s.log j := by
        intro j; rw [removals_append]; rfl
      refine ⟨fun j => by rw [e]; exact h.le j, fun j o hj hn => ?_, fun j hj => ?_⟩
      · show removals (s.log ++ [Event.made s.objs.length s.nextFile]) j = 0
        rw [e]
        have hj : (s.objs ++ [⟨some p, true⟩])[j]? = some o := hj
        by_cases hl : j < s.objs.length
        · rw [List.getElem?_append_left hl] at hj
          exact h.path j o hj hn
        · exact h.none j (by omega)
      · show removals (s.log ++ [Event.made s.objs.length s.nextFile]) j = 0
        rw [e]
        have hj : (s.objs ++ [(⟨some p, true⟩ : Obj)]).length ≤ j := hj
        rw [List.length_append] at hj
        exact h.none j (by omega)
  | cleanup i =>
    show Once (if (s.objs[i]?.map Obj.alive).getD false then s.cleanup i else s)
    split
    · exact h.cleanup i
    · exact h
  | del i =>
    show Once (s.del i)
    unfold Sys.del
    split
    · exact h
    · split
      · have h' := h.cleanup i
        dsimp only
        split
        · exact h'
        · rename_i o' ho'
          exact h'.setAlive i o' ho'
      · exact h
  | make p => exact ⟨h.le, h.path, h.none⟩
  | remove p => exact ⟨h.le, h.path, h.none⟩

theorem run_append (s : Sys) (h : List Act) (a : Act) : s.run (h ++ [a]) = (s.run h).act a := by
  simp [Sys.run]

theorem Once.run (at_ : Nat → Option Nat) (n : Nat) (h : List Act) : Once ((Sys.init at_ n).run h) := by
  induction h using List.reverseRecOn with
  | nil => exact ⟨fun _ => Nat.zero_le _, fun i o h => by simp [Sys.run, Sys.init] at h, fun _ _ => rfl⟩
  | append_singleton h a ih =>
    rw [run_append]
    exact ih.act a

/-- C127: whatever happens, an object removes one file at most. -/
theorem C127_once (at_ : Nat → Option Nat) (n : Nat) (h : List Act) (i : Nat) : removals ((Sys.init at_ n).run h).log i ≤ 1 :=
  (Once.run at_ n h).le i

/-! ## Objects nobody disturbs -/

structure Good (n : Nat) (s : Sys) : Prop where
  occ : ∀ (i : Nat) (o : Obj) p, s.objs[i]? = some o → o.path = some p → ∃ f, s.at_ p = some f ∧ Event.made i f ∈ s.log
  inj : ∀ (i j : Nat) (o o' : Obj) p, s.objs[i]? = some o → s.objs[j]? = some o' → o.path = some p → o'.path = some p → i = j
  uniq : ∀ q q' f, n ≤ f → s.at_ q = some f → s.at_ q' = some f → q = q'
  lt : ∀ q f, s.at_ q = some f → f < s.nextFile
  made : ∀ i f, Event.made i f ∈ s.log → n ≤ f ∧ f < s.nextFile ∧ i < s.objs.length
  one : ∀ i f f', Event.made i f ∈ s.log → Event.made i f' ∈ s.log → f = f'
  removed : ∀ i f, Event.removed i f ∈ s.log → Event.made i f ∈ s.log ∧ ∀ q, s.at_ q ≠ some f
  acc : ∀ i f, Event.made i f ∈ s.log → (∃ (o : Obj) (p : Nat), s.objs[i]? = some o ∧ o.path = some p ∧ s.at_ p = some f) ∨ Event.removed i f ∈ s.log
  quiet : ∀ i, Event.raised i ∉ s.log
  dead : ∀ (i : Nat) (o : Obj), s.objs[i]? = some o → o.alive = false → o.path = none
  base : n ≤ s.nextFile

theorem Good.cleanup {n : Nat} {s : Sys} (g : Good n s) (i : Nat) : Good n (s.cleanup i) := by
  unfold Sys.cleanup
  split
  · exact g
  · rename_i o ho
    split
    · exact g
    · rename_i p hp
      obtain ⟨f, hf, hm⟩ := g.occ i o p ho hp
      have hlt : i < s.objs.length := (List.getElem?_eq_some_iff.mp ho).1
      split
      · rename_i hn; rw [hf] at hn; cases hn
      · rename_i f' hf'
        rw [hf] at hf'
        obtain rfl := Option.some.inj hf'
        have hset : ∀ j (o' : Obj) q, (s.objs.set i { o with path := Option.none })[j]? = some o' → o'.path = some q → i ≠ j ∧ s.objs[j]? = some o' := by
          intro j o' q hj hq
          by_cases hij : i = j
          · subst hij
            rw [List.getElem?_set_self hlt] at hj
            obtain rfl := Option.some.inj hj
            cases hq
          · exact ⟨hij, by rwa [List.getElem?_set_ne hij] at hj⟩
        have hat : ∀ q v, Function.update s.at_ p none q = some v → q ≠ p ∧ s.at_ q = some v := by
          intro q v hq
          by_cases hqp : q = p
          · subst hqp; rw [Function.update_self] at hq; cases hq
          · rw [Function.update_of_ne hqp] at hq; exact ⟨hqp, hq⟩
        have hmem : ∀ e, e ∈ s.log ++ [Event.removed i f] ↔ e ∈ s.log ∨ e = Event.removed i f := by
          intro e; rw [List.mem_append, List.mem_singleton]
        refine ⟨?_, ?_, ?_, ?_, ?_, ?_, ?_, ?_, ?_, ?_, g.base⟩
        · intro j o' q hj hq
          obtain ⟨hij, hj'⟩ := hset j o' q hj hq
          obtain ⟨v, hv, hmv⟩ := g.occ j o' q hj' hq
          have hqp : q ≠ p := fun h => hij (g.inj i j o o' p ho hj' hp (h ▸ hq))
          exact ⟨v, by show Function.update s.at_ p none q = some v; rw [Function.update_of_ne hqp]; exact hv, (hmem _).mpr (.inl hmv)⟩
        · intro j k o1 o2 q h1 h2 h3 h4
          exact g.inj j k o1 o2 q (hset j o1 q h1 h3).2 (hset k o2 q h2 h4).2 h3 h4
        · intro q q' v hv h1 h2
          exact g.uniq q q' v hv (hat q v h1).2 (hat q' v h2).2
        · intro q v h1
          exact g.lt q v (hat q v h1).2
        · intro j v hv
          have hv := ((hmem _).mp hv).resolve_right (by simp)
          have := g.made j v hv
          exact ⟨this.1, this.2.1, by show j < (s.objs.set i _).length; rw [List.length_set]; exact this.2.2⟩
        · intro j v v' h1 h2
          exact g.one j v v' (((hmem _).mp h1).resolve_right (by simp)) (((hmem _).mp h2).resolve_right (by simp))
        · intro j v hv
          rcases (hmem _).mp hv with hv | hv
          · obtain ⟨h1, h2⟩ := g.removed j v hv
            exact ⟨(hmem _).mpr (.inl h1), fun q hq => h2 q (hat q v hq).2⟩
          · obtain ⟨rfl, rfl⟩ := Event.removed.inj hv
            refine ⟨(hmem _).mpr (.inl hm), fun q hq => ?_⟩
            obtain ⟨h1, h2⟩ := hat q v hq
            exact h1 (g.uniq q p v (g.made j v hm).1 h2 hf)
        · intro j v hv
          have hv := ((hmem _).mp hv).resolve_right (by simp)
          rcases g.acc j v hv with ⟨o', q, h1, h2, h3⟩ | h
          · by_cases hij : i = j
            · subst hij
              rw [ho] at h1
              obtain rfl := Option.some.inj h1
              rw [hp] at h2
              obtain rfl := Option.some.inj h2
              rw [hf] at h3
              obtain rfl := Option.some.inj h3
              exact .inr ((hmem _).mpr (.inr rfl))
            · refine .inl ⟨o', q, ?_, h2, ?_⟩
              · show (s.objs.set i _)[j]? = some o'
                rw [List.getElem?_set_ne hij]; exact h1
              · show Function.update s.at_ p none q = some v
                rw [Function.update_of_ne (fun h : q = p => hij (g.inj i j o o' p ho h1 hp (h ▸ h2)))]
                exact h3
          · exact .inr ((hmem _).mpr (.inl h))
        · intro j hj
          exact g.quiet j (((hmem _).mp hj).resolve_right (by simp))
        · intro j o' hj ha
          have hj : (s.objs.set i { o with path := Option.none })[j]? = some o' := hj
          by_cases hij : i = j
          · subst hij
            rw [List.getElem?_set_self hlt] at hj
            obtain rfl := Option.some.inj hj
            rfl
          · rw [List.getElem?_set_ne hij] at hj
            exact g.dead j o' hj ha

/-- After the cleanup of an object that is not disturbed it has no path. -/
theorem Good.cleaned {n : Nat} {s : Sys} (g : Good n s) (i : Nat) (o : Obj) (ho : (s.cleanup i).objs[i]? = some o) : o.path = none := by
  unfold Sys.cleanup at ho
  split at ho
  · rename_i hn; rw [hn] at ho; cases ho
  · rename_i o' ho'
    split at ho
    · rename_i hp
      rw [ho'] at ho
      obtain rfl := Option.some.inj ho
      exact hp
    · rename_i p hp
      obtain ⟨f, hf, -⟩ := g.occ i o' p ho' hp
      split at ho
      · rename_i hn; rw [hf] at hn; cases hn
      · have ho : (s.objs.set i { o' with path := Option.none })[i]? = some o := ho
        rw [List.getElem?_set_self (List.getElem?_eq_some_iff.mp ho').1] at ho
        obtain rfl := Option.some.inj ho
        rfl

theorem Good.setAlive {n : Nat} {s : Sys} (g : Good n s) (i : Nat) (o : Obj) (ho : s.objs[i]? = some o) (hp : o.path = none) :
    Good n { s with objs := s.objs.set i { o with alive := false } } := by
  have hlt : i < s.objs.length := (List.getElem?_eq_some_iff.mp ho).1
  have hset : ∀ j (o' : Obj) q, (s.objs.set i { o with alive := false })[j]? = some o' → o'.path = some q → i ≠ j ∧ s.objs[j]? = some o' := by
    intro j o' q hj hq
    by_cases hij : i = j
    · subst hij
      rw [List.getElem?_set_self hlt] at hj
      obtain rfl := Option.some.inj hj
      have hq : o.path = some q := hq
      rw [hp] at hq; cases hq
    · exact ⟨hij, by rwa [List.getElem?_set_ne hij] at hj⟩
  refine ⟨?_, ?_, g.uniq, g.lt, ?_, g.one, g.removed, ?_, g.quiet, ?_, g.base⟩
  · intro j o' q hj hq
    exact g.occ j o' q (hset j o' q hj hq).2 hq
  · intro j k o1 o2 q h1 h2 h3 h4
    exact g.inj j k o1 o2 q (hset j o1 q h1 h3).2 (hset k o2 q h2 h4).2 h3 h4
  · intro j v hv
    have := g.made j v hv
    exact ⟨this.1, this.2.1, by show j < (s.objs.set i _).length; rw [List.length_set]; exact this.2.2⟩
  · intro j v hv
    rcases g.acc j v hv with ⟨o', q, h1, h2, h3⟩ | h
    · refine .inl ⟨o', q, ?_, h2, h3⟩
      have hij : i ≠ j := by
        rintro rfl
        rw [ho] at h1
        obtain rfl := Option.some.inj h1
        rw [hp] at h2; cases h2
      show (s.objs.set i _)[j]? = some o'
      rw [List.getElem?_set_ne hij]; exact h1
    · exact .inr h
  · intro j o' hj ha
    have hj : (s.objs.set i { o with alive := false })[j]? = some o' := hj
    by_cases hij : i = j
    · subst hij
      rw [List.getElem?_set_self hlt] at hj
      obtain rfl := Option.some.inj hj
      exact hp
    · rw [List.getElem?_set_ne hij] at hj
      exact g.dead j o' hj ha

theorem Good.del {n : Nat} {s : Sys} (g : Good n s) (i : Nat) : Good n (s.del i) := by
  unfold Sys.del
  split
  · exact g
  · split
    · have h' := g.cleanup i
      dsimp only
      split
      · exact h'
      · rename_i o' ho'
        exact h'.setAlive i o' ho' (g.cleaned i o' ho')
    · exact g

theorem Good.tempFile {n : Nat} {s : Sys} (g : Good n s) (p : Nat) : Good n (s.tempFile p) := by
  unfold Sys.tempFile
  split
  · exact g
  · rename_i hn
    have hmem : ∀ e, e ∈ s.log ++ [Event.made s.objs.length s.nextFile] ↔ e ∈ s.log ∨ e = Event.made s.objs.length s.nextFile := by
      intro e; rw [List.mem_append, List.mem_singleton]
    have hobj : ∀ j (o : Obj), (s.objs ++ [(⟨some p, true⟩ : Obj)])[j]? = some o →
        s.objs[j]? = some o ∨ (j = s.objs.length ∧ o = ⟨some p, true⟩) := by
      intro j o hj
      by_cases hl : j < s.objs.length
      · rw [List.getElem?_append_left hl] at hj; exact .inl hj
      · rw [List.getElem?_append_right (by omega)] at hj
        by_cases hl' : j = s.objs.length
        · subst hl'
          rw [Nat.sub_self] at hj
          exact .inr ⟨rfl, (Option.some.inj hj).symm⟩
        · rw [List.getElem?_eq_none (by simp; omega)] at hj; cases hj
    have hpath : ∀ (j : Nat) (o : Obj) (q : Nat), s.objs[j]? = some o → o.path = some q → q ≠ p := by
      rintro j o q hj hq rfl
      obtain ⟨f, hf, -⟩ := g.occ j o q hj hq
      rw [hn] at hf; cases hf
    have hold : ∀ q v, s.at_ q = some v → Function.update s.at_ p (some s.nextFile) q = some v := by
      intro q v hq
      rw [Function.update_of_ne]
      · exact hq
      · rintro rfl; rw [hn] at hq; cases hq
    have hat : ∀ q v, Function.update s.at_ p (some s.nextFile) q = some v → (q = p ∧ v = s.nextFile) ∨ s.at_ q = some v := by
      intro q v hq
      by_cases hqp : q = p
      · subst hqp; rw [Function.update_self] at hq; exact .inl ⟨rfl, (Option.some.inj hq).symm⟩
      · rw [Function.update_of_ne hqp] at hq; exact .inr hq
    refine ⟨?_, ?_, ?_, ?_, ?_, ?_, ?_, ?_, ?_, ?_, Nat.le_succ_of_le g.base⟩
    · intro j o q hj hq
      rcases hobj j o hj with h | ⟨rfl, rfl⟩
      · obtain ⟨f, hf, hm⟩ := g.occ j o q h hq
        exact ⟨f, hold q f hf, (hmem _).mpr (.inl hm)⟩
      · obtain rfl := Option.some.inj hq
        exact ⟨s.nextFile, Function.update_self .., (hmem _).mpr (.inr rfl)⟩
    · intro j k o1 o2 q h1 h2 h3 h4
      rcases hobj j o1 h1 with h1 | ⟨rfl, rfl⟩ <;> rcases hobj k o2 h2 with h2 | ⟨rfl, rfl⟩
      · exact g.inj j k o1 o2 q h1 h2 h3 h4
      · exact absurd (Option.some.inj h4).symm (hpath j o1 q h1 h3)
      · exact absurd (Option.some.inj h3).symm (hpath k o2 q h2 h4)
      · rfl
    · intro q q' v hv h1 h2
      rcases hat q v h1 with ⟨e1, e⟩ | k1 <;> rcases hat q' v h2 with ⟨e2, e'⟩ | k2
      · rw [e1, e2]
      · have := g.lt q' v k2; omega
      · have := g.lt q v k1; omega
      · exact g.uniq q q' v hv k1 k2
    · intro q v h1
      show v < s.nextFile + 1
      rcases hat q v h1 with ⟨-, e⟩ | h1
      · omega
      · have := g.lt q v h1; omega
    · intro j v hv
      show n ≤ v ∧ v < s.nextFile + 1 ∧ j < (s.objs ++ [_]).length
      rw [List.length_append]
      have := g.base
      rcases (hmem _).mp hv with hv | hv
      · have := g.made j v hv
        exact ⟨this.1, by omega, by omega⟩
      · obtain ⟨rfl, rfl⟩ := Event.made.inj hv
        exact ⟨this, by omega, by simp⟩
    · intro j v v' h1 h2
      rcases (hmem _).mp h1 with h1 | h1 <;> rcases (hmem _).mp h2 with h2 | h2
      · exact g.one j v v' h1 h2
      · obtain ⟨rfl, -⟩ := Event.made.inj h2
        exact absurd (g.made _ v h1).2.2 (Nat.lt_irrefl _)
      · obtain ⟨rfl, -⟩ := Event.made.inj h1
        exact absurd (g.made _ v' h2).2.2 (Nat.lt_irrefl _)
      · exact (Event.made.inj h1).2.trans (Event.made.inj h2).2.symm
    · intro j v hv
      have hv := ((hmem _).mp hv).resolve_right (by simp)
      obtain ⟨h1, h2⟩ := g.removed j v hv
      refine ⟨(hmem _).mpr (.inl h1), fun q hq => ?_⟩
      rcases hat q v hq with ⟨-, e⟩ | hq
      · have := (g.made j v h1).2.1; omega
      · exact h2 q hq
    · intro j v hv
      rcases (hmem _).mp hv with hv | hv
      · rcases g.acc j v hv with ⟨o, q, h1, h2, h3⟩ | h
        · refine .inl ⟨o, q, ?_, h2, hold q v h3⟩
          show (s.objs ++ [_])[j]? = some o
          rw [List.getElem?_append_left (List.getElem?_eq_some_iff.mp h1).1]; exact h1
        · exact .inr ((hmem _).mpr (.inl h))
      · obtain ⟨rfl, rfl⟩ := Event.made.inj hv
        refine .inl ⟨⟨some p, true⟩, p, ?_, rfl, Function.update_self ..⟩
        show (s.objs ++ [_])[s.objs.length]? = _
        simp
    · intro j hj
      exact g.quiet j (((hmem _).mp hj).resolve_right (by simp))
    · intro j o hj ha
      rcases hobj j o hj with hj | ⟨rfl, rfl⟩
      · exact g.dead j o hj ha
      · cases ha

theorem Good.act {n : Nat} {s : Sys} (g : Good n s) (a : Act) (ha : ¬ Disturbs s a) : Good n (s.act a) := by
  cases a with
  | tempFile p => exact g.tempFile p
  | cleanup i =>
    show Good n (if (s.objs[i]?.map Obj.alive).getD false then s.cleanup i else s)
    split
    · exact g.cleanup i
    · exact g
  | del i => exact g.del i
  | make p =>
    have hne : ∀ (j : Nat) (o : Obj) (q : Nat), s.objs[j]? = some o → o.path = some q → q ≠ p := by
      rintro j o q hj hq rfl
      exact ha ⟨j, o, hj, hq⟩
    have hat : ∀ q v, Function.update s.at_ p (some s.nextFile) q = some v → (q = p ∧ v = s.nextFile) ∨ s.at_ q = some v := by
      intro q v hq
      by_cases hqp : q = p
      · subst hqp; rw [Function.update_self] at hq; exact .inl ⟨rfl, (Option.some.inj hq).symm⟩
      · rw [Function.update_of_ne hqp] at hq; exact .inr hq
    refine ⟨?_, g.inj, ?_, ?_, ?_, g.one, ?_, ?_, g.quiet, g.dead, Nat.le_succ_of_le g.base⟩
    · intro j o q hj hq
      obtain ⟨f, hf, hm⟩ := g.occ j o q hj hq
      exact ⟨f, by show Function.update s.at_ p _ q = some f; rw [Function.update_of_ne (hne j o q hj hq)]; exact hf, hm⟩
    · intro q q' v hv h1 h2
      rcases hat q v h1 with ⟨e1, e⟩ | k1 <;> rcases hat q' v h2 with ⟨e2, e'⟩ | k2
      · rw [e1, e2]
      · have := g.lt q' v k2; omega
      · have := g.lt q v k1; omega
      · exact g.uniq q q' v hv k1 k2
    · intro q v h1
      show v < s.nextFile + 1
      rcases hat q v h1 with ⟨-, e⟩ | h1
      · omega
      · have := g.lt q v h1; omega
    · intro j v hv
      have := g.made j v hv
      exact ⟨this.1, Nat.lt_succ_of_lt this.2.1, this.2.2⟩
    · intro j v hv
      obtain ⟨h1, h2⟩ := g.removed j v hv
      refine ⟨h1, fun q hq => ?_⟩
      rcases hat q v hq with ⟨-, e⟩ | hq
      · have := (g.made j v h1).2.1; omega
      · exact h2 q hq
    · intro j v hv
      rcases g.acc j v hv with ⟨o, q, h1, h2, h3⟩ | h
      · exact .inl ⟨o, q, h1, h2, by show Function.update s.at_ p _ q = some v; rw [Function.update_of_ne (hne j o q h1 h2)]; exact h3⟩
      · exact .inr h
  | remove p =>
    have hne : ∀ (j : Nat) (o : Obj) (q : Nat), s.objs[j]? = some o → o.path = some q → q ≠ p := by
      rintro j o q hj hq rfl
      exact ha ⟨j, o, hj, hq⟩
    have hat : ∀ q v, Function.update s.at_ p none q = some v → s.at_ q = some v := by
      intro q v hq
      by_cases hqp : q = p
      · subst hqp; rw [Function.update_self] at hq; cases hq
      · rwa [Function.update_of_ne hqp] at hq
    refine ⟨?_, g.inj, ?_, ?_, g.made, g.one, ?_, ?_, g.quiet, g.dead, g.base⟩
    · intro j o q hj hq
      obtain ⟨f, hf, hm⟩ := g.occ j o q hj hq
      exact ⟨f, by show Function.update s.at_ p _ q = some f; rw [Function.update_of_ne (hne j o q hj hq)]; exact hf, hm⟩
    · intro q q' v hv h1 h2
      exact g.uniq q q' v hv (hat q v h1) (hat q' v h2)
    · intro q v h1
      exact g.lt q v (hat q v h1)
    · intro j v hv
      obtain ⟨h1, h2⟩ := g.removed j v hv
      exact ⟨h1, fun q hq => h2 q (hat q v hq)⟩
    · intro j v hv
      rcases g.acc j v hv with ⟨o, q, h1, h2, h3⟩ | h
      · exact .inl ⟨o, q, h1, h2, by show Function.update s.at_ p _ q = some v; rw [Function.update_of_ne (hne j o q h1 h2)]; exact h3⟩
      · exact .inr h

theorem Good.run (at_ : Nat → Option Nat) (n : Nat) (hn : ∀ q f, at_ q = some f → f < n) (h : List Act)
    (hu : Undisturbed (Sys.init at_ n) h) : Good n ((Sys.init at_ n).run h) := by
  induction h using List.reverseRecOn with
  | nil =>
    refine ⟨?_, ?_, ?_, hn, ?_, ?_, ?_, ?_, ?_, ?_, Nat.le_refl _⟩
    all_goals simp [Sys.run, Sys.init]
    intro q q' f hf h1
    exact absurd (hn q f h1) (by omega)
  | append_singleton h a ih =>
    rw [run_append]
    apply (ih _).act a
    · exact hu h a [] rfl
    · intro pre b post e
      exact hu pre b (post ++ [a]) (by rw [e]; simp)

/-- C127: as long as nobody else touches the paths, an object removes the file it made and no other, never raises, its file is there until
then and nowhere afterwards, and an object that is gone has removed its file. -/
theorem C127_own_partial (at_ : Nat → Option Nat) (n : Nat) (hn : ∀ q f, at_ q = some f → f < n) (h : List Act)
    (hu : Undisturbed (Sys.init at_ n) h) (s : Sys) (hs : s = (Sys.init at_ n).run h) :
    (∀ i, Event.raised i ∉ s.log) ∧
    (∀ i f, Event.removed i f ∈ s.log → Event.made i f ∈ s.log ∧ ∀ q, s.at_ q ≠ some f) ∧
    (∀ (i : Nat) (o : Obj) p, s.objs[i]? = some o → o.path = some p → ∃ f, s.at_ p = some f ∧ Event.made i f ∈ s.log ∧ Event.removed i f ∉ s.log) ∧
    (∀ (i : Nat) (o : Obj) f, s.objs[i]? = some o → Event.made i f ∈ s.log → (o.alive = false ∨ o.path = none) → Event.removed i f ∈ s.log) := by
  subst hs
  have g := Good.run at_ n hn h hu
  refine ⟨g.quiet, g.removed, ?_, ?_⟩
  · intro i o p ho hp
    obtain ⟨f, hf, hm⟩ := g.occ i o p ho hp
    exact ⟨f, hf, hm, fun hr => (g.removed i f hr).2 p hf⟩
  · intro i o f ho hm hd
    have hp : o.path = none := by
      rcases hd with hd | hd
      · exact g.dead i o ho hd
      · exact hd
    rcases g.acc i f hm with ⟨o', p, h1, h2, -⟩ | hr
    · rw [ho] at h1
      obtain rfl := Option.some.inj h1
      rw [hp] at h2; cases h2
    · exact hr

/-- What an object does leaves every file alone that it does not log as removed. -/
theorem cleanup_others (s : Sys) (i : Nat) (q f : Nat) (h : s.at_ q = some f) :
    (s.cleanup i).at_ q = some f ∨ Event.removed i f ∈ (s.cleanup i).log := by
  unfold Sys.cleanup
  split
  · exact .inl h
  · split
    · exact .inl h
    · rename_i p _
      split
      · exact .inl h
      · rename_i f' hf'
        by_cases hq : q = p
        · subst hq
          rw [h] at hf'
          obtain rfl := Option.some.inj hf'
          exact .inr (by simp)
        · exact .inl (by show Function.update s.at_ p none q = some f; rw [Function.update_of_ne hq]; exact h)

/-- C127: whatever happens, files go only when an object removes them or somebody else does. -/
theorem C127_others (s : Sys) (a : Act) (ha : ∀ p, a ≠ .make p ∧ a ≠ .remove p) (q f : Nat) (h : s.at_ q = some f) :
    (s.act a).at_ q = some f ∨ ∃ i, Event.removed i f ∈ (s.act a).log := by
  cases a with
  | tempFile p =>
    left
    show (s.tempFile p).at_ q = some f
    unfold Sys.tempFile
    split
    · exact h
    · rename_i hn
      show Function.update s.at_ p _ q = some f
      rw [Function.update_of_ne]
      · exact h
      · rintro rfl; rw [hn] at h; cases h
  | cleanup i =>
    show (if (s.objs[i]?.map Obj.alive).getD false then s.cleanup i else s).at_ q = some f ∨
      ∃ j, Event.removed j f ∈ (if (s.objs[i]?.map Obj.alive).getD false then s.cleanup i else s).log
    split
    · exact (cleanup_others s i q f h).imp id (fun h => ⟨i, h⟩)
    · exact .inl h
  | del i =>
    show (s.del i).at_ q = some f ∨ ∃ j, Event.removed j f ∈ (s.del i).log
    unfold Sys.del
    split
    · exact .inl h
    · split
      · have := cleanup_others s i q f h
        dsimp only
        split
        · exact this.imp id (fun h => ⟨i, h⟩)
        · exact this.imp id (fun h => ⟨i, h⟩)
      · exact .inl h
  | make p => exact absurd rfl (ha p).1
  | remove p => exact absurd rfl (ha p).2

/-- C127: a `with` block: the body finds a new empty file at the path; if it leaves that file and the object alone, the block ends as the
body does, and afterwards the file is gone and all other paths are as the body left them. -/
theorem C127_with_partial {E : Type} (gone : E) (s : Sys) (p : Nat) (hp : s.at_ p = none) (body : Sys → Except E Unit × Sys)
    (hb : (body (s.tempFile p)).2.at_ p = some s.nextFile)
    (ho : (body (s.tempFile p)).2.objs[s.objs.length]? = some ⟨some p, true⟩) :
    (s.tempFile p).at_ p = some s.nextFile ∧
    (withFile gone s p body).1 = (body (s.tempFile p)).1 ∧
    (withFile gone s p body).2.at_ p = none ∧
    ∀ q, q ≠ p → (withFile gone s p body).2.at_ q = (body (s.tempFile p)).2.at_ q := by
  refine ⟨?_, ?_⟩
  · unfold Sys.tempFile
    rw [hp]
    exact Function.update_self ..
  · unfold withFile
    dsimp only
    generalize body (s.tempFile p) = b at hb ho
    obtain ⟨r, t⟩ := b
    dsimp only at hb ho ⊢
    have hlt := (List.getElem?_eq_some_iff.mp ho).1
    have hc : t.cleanup s.objs.length = { t.unlink p with
        objs := t.objs.set s.objs.length ⟨none, true⟩, log := t.log ++ [.removed s.objs.length s.nextFile] } := by
      unfold Sys.cleanup
      rw [ho]
      dsimp only
      rw [hb]
    have hr : t.cleanupRaises s.objs.length = false := by
      unfold Sys.cleanupRaises
      rw [ho]
      dsimp only
      rw [hb]; rfl
    have hd : ((t.cleanup s.objs.length).del s.objs.length).at_ = (t.unlink p).at_ := by
      rw [hc]
      unfold Sys.del
      dsimp only
      rw [List.getElem?_set_self hlt]
      dsimp only
      rw [if_pos rfl]
      unfold Sys.cleanup
      dsimp only
      rw [List.getElem?_set_self hlt]
      dsimp only
      rw [List.getElem?_set_self hlt]
    refine ⟨by rw [hr]; rfl, ?_, ?_⟩
    · rw [hd]; exact Function.update_self ..
    · intro q hq
      rw [hd]; exact Function.update_of_ne hq ..

/-- C127 refuted: when the file was removed by others and another one is made at the path, the object removes that one; and a `with` block
whose body removes the file raises although the body does not. -/
theorem C127_refuted :
    (let s := (Sys.init (fun _ => none) 0).run [.tempFile 5, .remove 5, .cleanup 0, .make 5, .del 0]
     s.log = [.made 0 0, .raised 0, .removed 0 1] ∧ s.at_ 5 = none) ∧
    (withFile "FileNotFoundError" (Sys.init (fun _ => none) 0) 5 (fun s => (.ok (), s.unlink 5))).1 = .error "FileNotFoundError" := by
  refine ⟨⟨by decide, by decide⟩, by rfl⟩

theorem demo_run : Undisturbed (Sys.init (fun _ => none) 0) [.tempFile 5, .make 6, .tempFile 7, .cleanup 0, .remove 5, .del 0, .del 1] ∧
    ((Sys.init (fun _ => none) 0).run [.tempFile 5, .make 6, .tempFile 7, .cleanup 0, .remove 5, .del 0, .del 1]).log =
      [.made 0 0, .made 1 2, .removed 0 0, .removed 1 2] := by
  refine ⟨?_, by decide⟩
  intro pre a post e hd
  have hl := congrArg List.length e
  simp only [List.length_cons, List.length_nil, List.length_append] at hl
  have hpre : pre = [Act.tempFile 5, .make 6, .tempFile 7, .cleanup 0, .remove 5, .del 0, .del 1].take pre.length := by
    rw [e, List.take_left]
  have ha : [Act.tempFile 5, .make 6, .tempFile 7, .cleanup 0, .remove 5, .del 0, .del 1][pre.length]? = some a := by
    rw [e]; simp
  have hk : pre.length < 7 := by omega
  generalize pre.length = k at *
  subst hpre
  rcases k with _ | _ | _ | _ | _ | _ | _ | k <;> first | omega | skip
  all_goals (simp at ha; subst ha; try exact hd)
  all_goals
    obtain ⟨i, o, ho, hp⟩ := hd
    rcases i with _ | _ | i <;> simp [Sys.run, Sys.act, Sys.tempFile, Sys.init, Sys.make, Sys.cleanup, Sys.unlink, Function.update] at ho
    all_goals first | (subst ho; simp at hp) | skip

/-- `C127_own_partial`, `C127_once` on this history: both files are gone, each removed by its own object and once. -/
example : Event.made 1 2 ∈ ((Sys.init (fun _ => none) 0).run [.tempFile 5, .make 6, .tempFile 7, .cleanup 0, .remove 5, .del 0, .del 1]).log ∧
    removals ((Sys.init (fun _ => none) 0).run [.tempFile 5, .make 6, .tempFile 7, .cleanup 0, .remove 5, .del 0, .del 1]).log 0 ≤ 1 :=
  ⟨((C127_own_partial (fun _ => none) 0 (by simp) _ demo_run.1 _ rfl).2.1 1 2 (by rw [demo_run.2]; simp)).1, C127_once _ _ _ 0⟩

/-- `C127_others`: the file somebody made at 6, when the first object cleans up. -/
example : ((((Sys.init (fun _ => none) 0).run [.tempFile 5, .make 6]).act (.cleanup 0)).at_ 6 = some 1) ∨
    ∃ i, Event.removed i 1 ∈ (((Sys.init (fun _ => none) 0).run [.tempFile 5, .make 6]).act (.cleanup 0)).log :=
  C127_others _ (.cleanup 0) (by simp) 6 1 (by decide)

/-- `C127_with_partial`: a body that makes a file elsewhere and raises. -/
example : (withFile "gone" (Sys.init (fun _ => none) 0) 5 (fun s => (.error "mine", s.make 6))).1 = .error "mine" ∧
    (withFile "gone" (Sys.init (fun _ => none) 0) 5 (fun s => (.error "mine", s.make 6))).2.at_ 5 = none := by
  obtain ⟨-, h1, h2, -⟩ := C127_with_partial "gone" (Sys.init (fun _ => none) 0) 5 rfl (fun s => (.error "mine", s.make 6)) (by decide) (by decide)
  exact ⟨h1, h2⟩

end Verif.Temporary
