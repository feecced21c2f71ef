import Verif.Testing.Fetch
import Mathlib.Tactic.SplitIfs

/-!
Property theorems about test data (C148).
-/

namespace Verif.Testing.Fetch

variable {N : Type} [DecidableEq N]

/-! ### Specification -/

/-- States that calls asking for these names can come to. -/
inductive Reachable (server : N → Option (List UInt8)) (disk : N → Option (List UInt8)) (asked : Nat → List N) :
    Sys N → Prop
  | init : Reachable server disk asked (init disk asked)
  | step {s t : Sys N} : Reachable server disk asked s → Step server s t → Reachable server disk asked t

/-- Some call is writing this file. -/
def Sys.Busy (s : Sys N) (n : N) : Prop := ∃ p c off todo got, s.call p = .writing n c off todo got

/-- Some call was killed while it wrote this file. -/
def Sys.Hurt (s : Sys N) (n : N) : Prop := ∃ p, s.call p = .killed (some n)

/-! ### Writes -/

theorem writeAt_length (f : List UInt8) (off : Nat) (ch : List UInt8) :
    (writeAt f off ch).length = max f.length (off + ch.length) := by
  simp only [writeAt, List.length_append, List.length_take, List.length_replicate, List.length_drop]
  omega

/-- After a write: what is written, and what was there elsewhere (up to the end of the file). -/
theorem writeAt_get (f : List UInt8) (off : Nat) (ch : List UInt8) (i : Nat) :
    (writeAt f off ch)[i]? =
      if i < off then (if i < f.length then f[i]? else some 0)
      else if i < off + ch.length then ch[i - off]? else f[i]? := by
  have hl : ((f ++ List.replicate (off - f.length) 0).take off).length = off := by
    simp only [List.length_append, List.length_take, List.length_replicate]; omega
  simp only [writeAt]
  split_ifs with h1 h2 h3
  · rw [List.getElem?_append_left (by omega), List.getElem?_take_of_lt h1, List.getElem?_append_left h2]
  · rw [List.getElem?_append_left (by omega), List.getElem?_take_of_lt h1, List.getElem?_append_right (by omega),
      List.getElem?_replicate_of_lt (by omega)]
  · rw [List.getElem?_append_right (by omega), hl, List.getElem?_append_left (by omega)]
  · rw [List.getElem?_append_right (by omega), hl, List.getElem?_append_right (by omega), List.getElem?_drop]
    congr 1
    omega

/-- The first `o` bytes are there and right. -/
def Good (f c : List UInt8) (o : Nat) : Prop := f.length ≤ c.length ∧ ∀ i < o, f[i]? = c[i]?

theorem chunk_get (c : List UInt8) (off k i : Nat) (h1 : off ≤ i) (h2 : i < off + k) :
    ((c.drop off).take k)[i - off]? = c[i]? := by
  rw [List.getElem?_take_of_lt (by omega), List.getElem?_drop]
  congr 1
  omega

theorem chunk_len (c : List UInt8) (off k : Nat) (h : off + k ≤ c.length) : ((c.drop off).take k).length = k := by
  rw [List.length_take, List.length_drop]
  omega

/-- Somebody's write does not spoil what is right. -/
theorem good_write {f c : List UInt8} {o : Nat} (h : Good f c o) (ho : o ≤ c.length) (off k : Nat)
    (hk : off + k ≤ c.length) : Good (writeAt f off ((c.drop off).take k)) c o := by
  refine ⟨by rw [writeAt_length, chunk_len c off k hk]; have := h.1; omega, fun i hi => ?_⟩
  have hg := h.2 i hi
  have hf : i < f.length := by
    by_contra hc
    rw [List.getElem?_eq_none (by omega)] at hg
    have := List.getElem?_eq_none_iff.1 hg.symm
    omega
  rw [writeAt_get, chunk_len c off k hk]
  split_ifs with h1 h2
  · exact hg
  · exact chunk_get c off k i (by omega) h2
  · exact hg

/-- The own write makes more right. -/
theorem good_extend {f c : List UInt8} {o : Nat} (h : Good f c o) (k : Nat) (hk : o + k ≤ c.length) :
    Good (writeAt f o ((c.drop o).take k)) c (o + k) := by
  refine ⟨(good_write h (by omega) o k hk).1, fun i hi => ?_⟩
  by_cases hlt : i < o
  · exact (good_write h (by omega) o k hk).2 i hlt
  · rw [writeAt_get, chunk_len c o k hk, if_neg hlt, if_pos hi]
    exact chunk_get c o k i (by omega) hi

theorem good_all {f c : List UInt8} (h : Good f c c.length) : f = c := by
  apply List.ext_getElem?
  intro i
  by_cases hi : i < c.length
  · exact h.2 i hi
  · rw [List.getElem?_eq_none (by have := h.1; omega), List.getElem?_eq_none (by omega)]

/-! ### Invariants -/

/-- What a call holds came from the server, for a file that was not there at first. -/
def Stage.Sound (server disk : N → Option (List UInt8)) : Stage N → Prop
  | .fetch n _ _ => disk n = none
  | .opening n c _ _ => disk n = none ∧ server n = some c
  | .writing n c off _ _ => disk n = none ∧ server n = some c ∧ off ≤ c.length
  | .killed (some n) => disk n = none
  | _ => True

/-- Files that were there are as they were. A new file is complete, or was damaged by a killed call, or the call that
opened it last is writing it and what it has written is right. -/
def FileOk (server disk : N → Option (List UInt8)) (s : Sys N) (n : N) : Prop :=
  match disk n with
  | some f => s.disk n = some f
  | none =>
    (s.disk n = none ∧ ¬ s.Busy n) ∨
    ∃ f c, s.disk n = some f ∧ server n = some c ∧ f.length ≤ c.length ∧
      (s.Hurt n ∨ f = c ∨ ∃ p off todo got, s.call p = .writing n c off todo got ∧ Good f c off)

/-- A call has dealt with the names in order; those it has dealt with are there. -/
def Stage.Orderly (disk : N → Option (List UInt8)) (asked : List N) : Stage N → Prop
  | .look todo got => got ++ todo = asked ∧ ∀ n ∈ got, disk n ≠ none
  | .fetch n todo got => got ++ n :: todo = asked ∧ ∀ n ∈ got, disk n ≠ none
  | .opening n _ todo got => got ++ n :: todo = asked ∧ ∀ n ∈ got, disk n ≠ none
  | .writing n _ _ todo got => got ++ n :: todo = asked ∧ disk n ≠ none ∧ ∀ n ∈ got, disk n ≠ none
  | .returned got => got = asked ∧ ∀ n ∈ got, disk n ≠ none
  | _ => True

omit [DecidableEq N] in
theorem Stage.Orderly.mono {d d' : N → Option (List UInt8)} (hd : ∀ n, d n ≠ none → d' n ≠ none) {asked : List N} :
    ∀ {t : Stage N}, t.Orderly d asked → t.Orderly d' asked
  | .look _ _, h => ⟨h.1, fun n hn => hd n (h.2 n hn)⟩
  | .fetch _ _ _, h => ⟨h.1, fun n hn => hd n (h.2 n hn)⟩
  | .opening _ _ _ _, h => ⟨h.1, fun n hn => hd n (h.2 n hn)⟩
  | .writing _ _ _ _ _, h => ⟨h.1, hd _ h.2.1, fun n hn => hd n (h.2.2 n hn)⟩
  | .returned _, h => ⟨h.1, fun n hn => hd n (h.2 n hn)⟩
  | .raised, _ => trivial
  | .killed _, _ => trivial

omit [DecidableEq N] in
theorem fileOk_frame {server disk : N → Option (List UInt8)} {s s' : Sys N} {n : N} {p : Nat} {t : Stage N}
    (h : FileOk server disk s n) (hd : s'.disk n = s.disk n) (hc : s'.call = Function.update s.call p t)
    (hw : ∀ c off todo got, t ≠ .writing n c off todo got)
    (hx : s.call p = .killed (some n) → t = .killed (some n))
    (hy : ∀ c off todo got, s.call p = .writing n c off todo got → t = .killed (some n) ∨ off = c.length) :
    FileOk server disk s' n := by
  have hhurt : s.Hurt n → s'.Hurt n := by
    rintro ⟨q, hq⟩
    refine ⟨q, ?_⟩
    rw [hc]
    by_cases e : q = p
    · subst e; rw [Function.update_self]; exact hx hq
    · rw [Function.update_of_ne e]; exact hq
  unfold FileOk at h ⊢
  split at h
  · rw [hd]; exact h
  · rcases h with ⟨h1, h2⟩ | ⟨f, c, h1, h2, h3, h4⟩
    · refine Or.inl ⟨hd.trans h1, ?_⟩
      rintro ⟨q, c, off, todo, got, hq⟩
      rw [hc] at hq
      by_cases e : q = p
      · subst e; rw [Function.update_self] at hq; exact hw _ _ _ _ hq
      · rw [Function.update_of_ne e] at hq; exact h2 ⟨q, c, off, todo, got, hq⟩
    · refine Or.inr ⟨f, c, hd.trans h1, h2, h3, ?_⟩
      rcases h4 with h4 | h4 | ⟨q, off, todo, got, hq, hg⟩
      · exact Or.inl (hhurt h4)
      · exact Or.inr (Or.inl h4)
      · by_cases e : q = p
        · subst e
          rcases hy _ _ _ _ hq with ht | ho
          · exact Or.inl ⟨q, by rw [hc, Function.update_self]; exact ht⟩
          · subst ho
            exact Or.inr (Or.inl (good_all hg))
        · exact Or.inr (Or.inr ⟨q, off, todo, got, by rw [hc, Function.update_of_ne e]; exact hq, hg⟩)

/-- All invariants. -/
structure Inv (server disk : N → Option (List UInt8)) (asked : Nat → List N) (s : Sys N) : Prop where
  sound : ∀ p, (s.call p).Sound server disk
  file : ∀ n, FileOk server disk s n
  orderly : ∀ p, (s.call p).Orderly s.disk (asked p)

omit [DecidableEq N] in
theorem call_all {P : Nat → Stage N → Prop} {s : Sys N} (h : ∀ p, P p (s.call p)) (p : Nat) {t : Stage N} (ht : P p t) :
    ∀ q, P q (Function.update s.call p t q) := by
  intro q
  by_cases e : q = p
  · subst e; rw [Function.update_self]; exact ht
  · rw [Function.update_of_ne e]; exact h q

omit [DecidableEq N] in
/-- A step that leaves the directory alone. -/
theorem inv_call {server disk : N → Option (List UInt8)} {asked : Nat → List N} {s : Sys N} (i : Inv server disk asked s)
    (p : Nat) {t : Stage N} (hs : t.Sound server disk) (ho : t.Orderly s.disk (asked p))
    (hw : ∀ n c off todo got, t ≠ .writing n c off todo got)
    (hx : ∀ n, s.call p = .killed (some n) → t = .killed (some n))
    (hy : ∀ n c off todo got, s.call p = .writing n c off todo got → t = .killed (some n) ∨ off = c.length) :
    Inv server disk asked (s.setCall p t) where
  sound := call_all (P := fun _ t => t.Sound server disk) i.sound p hs
  file n := fileOk_frame (i.file n) rfl rfl (hw n) (hx n) (hy n)
  orderly := call_all (P := fun p t => t.Orderly s.disk (asked p)) i.orderly p ho

/-- A step that changes one new file. -/
theorem inv_file {server disk : N → Option (List UInt8)} {asked : Nat → List N} {s : Sys N} (i : Inv server disk asked s)
    (p : Nat) {n : N} {f : List UInt8} {t : Stage N} (hs : t.Sound server disk)
    (ho : t.Orderly (Function.update s.disk n (some f)) (asked p))
    (hw : ∀ m c off todo got, t = .writing m c off todo got → m = n)
    (hk : ∀ v, s.call p ≠ .killed v)
    (hy : ∀ m c off todo got, s.call p = .writing m c off todo got → m = n)
    (hf : FileOk server disk ((s.setFile n f).setCall p t) n) :
    Inv server disk asked ((s.setFile n f).setCall p t) where
  sound := call_all (P := fun _ t => t.Sound server disk) i.sound p hs
  file m := by
    by_cases e : m = n
    · subst e; exact hf
    · refine fileOk_frame (p := p) (t := t) (i.file m) (Function.update_of_ne e _ _) rfl ?_ (fun h => absurd h (hk _)) ?_
      · intro c off todo got h; exact e (hw _ _ _ _ _ h)
      · intro c off todo got h; exact absurd (hy _ _ _ _ _ h) e
  orderly := call_all (s := s) (P := fun p t => t.Orderly (Function.update s.disk n (some f)) (asked p))
    (fun q => (i.orderly q).mono (fun m hm => by
      by_cases e : m = n
      · subst e; rw [Function.update_self]; simp
      · rw [Function.update_of_ne e]; exact hm)) p ho

omit [DecidableEq N] in
theorem got_snoc {d : N → Option (List UInt8)} {n : N} {got : List N} (h : ∀ m ∈ got, d m ≠ none) (hn : d n ≠ none) :
    ∀ m ∈ got ++ [n], d m ≠ none := by
  intro m hm
  rcases List.mem_append.1 hm with hm | hm
  · exact h m hm
  · rw [List.mem_singleton.1 hm]; exact hn

theorem inv_step {server disk : N → Option (List UInt8)} {asked : Nat → List N} {s t : Sys N}
    (i : Inv server disk asked s) (h : Step server s t) : Inv server disk asked t := by
  cases h with
  | there p hc hd =>
    have o := i.orderly p
    rw [hc] at o
    refine inv_call i p trivial ⟨by rw [List.append_assoc]; exact o.1, got_snoc o.2 (by rw [hd]; simp)⟩
      (by intros; simp) (by rw [hc]; intro n h; cases h) (by rw [hc]; intro n c off todo got h; cases h)
  | @absent p n todo got hc hd =>
    have o := i.orderly p
    rw [hc] at o
    have hn : disk n = none := by
      have := i.file n
      unfold FileOk at this
      split at this
      · rw [this] at hd; cases hd
      · assumption
    exact inv_call i p hn o (by intros; simp) (by rw [hc]; intro n h; cases h)
      (by rw [hc]; intro n c off todo got h; cases h)
  | answer p hc hs =>
    have o := i.orderly p
    have w := i.sound p
    rw [hc] at o w
    exact inv_call i p ⟨w, hs⟩ o (by intros; simp) (by rw [hc]; intro n h; cases h)
      (by rw [hc]; intro n c off todo got h; cases h)
  | refuse p hc =>
    exact inv_call i p trivial trivial (by intros; simp) (by rw [hc]; intro n h; cases h)
      (by rw [hc]; intro n c off todo got h; cases h)
  | @openFile p n todo got c hc =>
    have o := i.orderly p
    have w := i.sound p
    rw [hc] at o w
    refine inv_file i p ⟨w.1, w.2, Nat.zero_le _⟩ ⟨o.1, by rw [Function.update_self]; simp, ?_⟩ ?_ ?_ ?_ ?_
    · intro m hm
      by_cases e : m = n
      · subst e; rw [Function.update_self]; simp
      · rw [Function.update_of_ne e]; exact o.2 m hm
    · intro m c off todo got h; cases h; rfl
    · rw [hc]; intro v h; cases h
    · rw [hc]; intro m c off todo got h; cases h
    · unfold FileOk
      rw [w.1]
      refine Or.inr ⟨[], c, Function.update_self _ _ _, w.2, by simp, Or.inr (Or.inr ⟨p, 0, todo, got, ?_, by simp, ?_⟩)⟩
      · exact Function.update_self _ _ _
      · intro i hi; omega
  | @write p k n todo got c f off hc hd hk =>
    have o := i.orderly p
    have w := i.sound p
    rw [hc] at o w
    refine inv_file i p ⟨w.1, w.2.1, hk⟩ ⟨o.1, by rw [Function.update_self]; simp, ?_⟩ ?_ ?_ ?_ ?_
    · intro m hm
      by_cases e : m = n
      · subst e; rw [Function.update_self]; simp
      · rw [Function.update_of_ne e]; exact o.2.2 m hm
    · intro m c off todo got h; cases h; rfl
    · rw [hc]; intro v h; cases h
    · rw [hc]; intro m c off todo got h; cases h; rfl
    · have hf := i.file n
      unfold FileOk at hf ⊢
      rw [w.1] at hf ⊢
      rcases hf with ⟨h1, _⟩ | ⟨f', c', h1, h2, h3, h4⟩
      · rw [hd] at h1; cases h1
      · have e1 : f = f' := Option.some.inj (hd.symm.trans h1)
        have e2 : c = c' := Option.some.inj (w.2.1.symm.trans h2)
        subst e1 e2
        refine Or.inr ⟨_, c, Function.update_self _ _ _, h2, ?_, ?_⟩
        · exact (good_write (o := 0) ⟨h3, fun i hi => absurd hi (by omega)⟩ (by omega) off k hk).1
        · rcases h4 with ⟨q, hq⟩ | h4 | ⟨q, off', todo', got', hq, hg⟩
          · refine Or.inl ⟨q, ?_⟩
            have e : q ≠ p := by rintro rfl; rw [hc] at hq; cases hq
            show Function.update s.call p _ q = _
            rw [Function.update_of_ne e]; exact hq
          · subst h4
            exact Or.inr (Or.inl (good_all (good_write ⟨Nat.le_refl _, fun _ _ => rfl⟩ (Nat.le_refl _) off k hk)))
          · refine Or.inr (Or.inr ?_)
            by_cases e : q = p
            · subst e
              rw [hc] at hq
              cases hq
              exact ⟨q, off + k, todo, got, Function.update_self _ _ _, good_extend hg k hk⟩
            · have wq := i.sound q
              rw [hq] at wq
              refine ⟨q, off', todo', got', ?_, good_write hg wq.2.2 off k hk⟩
              show Function.update s.call p _ q = _
              rw [Function.update_of_ne e]; exact hq
  | close p hc =>
    have o := i.orderly p
    rw [hc] at o
    refine inv_call i p trivial ⟨by rw [List.append_assoc]; exact o.1, got_snoc o.2.2 o.2.1⟩ (by intros; simp)
      (by rw [hc]; intro n h; cases h) (by rw [hc]; intro n c off todo got h; cases h; exact Or.inr rfl)
  | done p hc =>
    have o := i.orderly p
    rw [hc] at o
    exact inv_call i p trivial ⟨by have := o.1; rwa [List.append_nil] at this, o.2⟩ (by intros; simp)
      (by rw [hc]; intro n h; cases h) (by rw [hc]; intro n c off todo got h; cases h)
  | kill p =>
    refine inv_call i p ?_ trivial (by intros; simp) (by intro n h; rw [h]; rfl)
      (by intro n c off todo got h; rw [h]; exact Or.inl rfl)
    have w := i.sound p
    revert w
    cases s.call p with
    | writing n c off todo got => exact fun w => w.1
    | killed v => exact id
    | _ => exact fun _ => trivial

theorem inv_reachable {server disk : N → Option (List UInt8)} {asked : Nat → List N} {s : Sys N}
    (h : Reachable server disk asked s) : Inv server disk asked s := by
  induction h with
  | init =>
    refine ⟨fun _ => trivial, fun n => ?_, fun p => ⟨rfl, fun n hn => absurd hn (by simp)⟩⟩
    unfold FileOk
    split
    · assumption
    · refine Or.inl ⟨by assumption, ?_⟩
      rintro ⟨p, c, off, todo, got, h⟩
      cases h
  | step _ hs ih => exact inv_step ih hs

/-! ### The claims -/

/-- C148: whatever calls run at the same time and whichever are killed, files that were there are not touched; and a file
that nobody is writing, and nobody was killed while writing, is as on the server or not there.
Missing from the full statement: files that are being written or that a killed call left (`C148_refuted`). -/
theorem C148_files_partial {server disk : N → Option (List UInt8)} {asked : Nat → List N} {s : Sys N}
    (h : Reachable server disk asked s) (n : N) :
    (∀ f, disk n = some f → s.disk n = some f) ∧
    (disk n = none → ¬ s.Busy n → ¬ s.Hurt n → s.disk n = none ∨ s.disk n = server n) := by
  have hf := (inv_reachable h).file n
  unfold FileOk at hf
  split at hf
  · rename_i g hg
    exact ⟨fun f e => by rw [hf, ← hg, e], fun e => by rw [hg] at e; cases e⟩
  · rename_i hn
    refine ⟨fun f e => (by rw [hn] at e; cases e), fun _ hb hh => ?_⟩
    rcases hf with h | ⟨f, c, h1, h2, _, h4⟩
    · exact Or.inl h.1
    · rcases h4 with h4 | h4 | ⟨q, off, todo, got, hq, _⟩
      · exact absurd h4 hh
      · exact Or.inr (by rw [h1, h2, h4])
      · exact absurd ⟨q, c, off, todo, got, hq⟩ hb

/-- C148: a call that returns has dealt with all the names it was asked for, in order, and each is then there, as it was
or as on the server, unless somebody is writing it or was killed while writing it. -/
theorem C148_returns_partial {server disk : N → Option (List UInt8)} {asked : Nat → List N} {s : Sys N}
    (h : Reachable server disk asked s) (p : Nat) (got : List N) (hr : s.call p = .returned got) :
    got = asked p ∧ ∀ n ∈ got, ¬ s.Busy n → ¬ s.Hurt n →
      ∃ f, s.disk n = some f ∧ (disk n = some f ∨ disk n = none ∧ server n = some f) := by
  have o := (inv_reachable h).orderly p
  rw [hr] at o
  refine ⟨o.1, fun n hn hb hh => ?_⟩
  obtain ⟨h1, h2⟩ := C148_files_partial h n
  cases hd : disk n with
  | some f => exact ⟨f, h1 f hd, Or.inl rfl⟩
  | none =>
    rcases h2 hd hb hh with e | e
    · exact absurd e (o.2 n hn)
    · cases hs : s.disk n with
      | none => exact absurd hs (o.2 n hn)
      | some f => exact ⟨f, rfl, Or.inr ⟨rfl, e.symm.trans hs⟩⟩

omit [DecidableEq N] in
/-- C148: the answer is a list, unless exactly one file was asked for, however it was asked for. -/
theorem C148_shape (a : Arg N) : ((answerOf a.names).names = a.names) ∧
    ((∃ n, answerOf a.names = .one n) ↔ a.names.length = 1) := by
  constructor
  · unfold answerOf
    split
    · rename_i n h; rw [h]; rfl
    · rfl
  · unfold answerOf
    split
    · rename_i n h; rw [h]; simp
    · rename_i h
      constructor
      · rintro ⟨n, hn⟩; cases hn
      · intro hl
        obtain ⟨n, hn⟩ := List.length_eq_one_iff.1 hl
        exact absurd hn (h n)

omit [DecidableEq N] in
theorem setCall_self (s : Sys N) (p : Nat) (t : Stage N) : (s.setCall p t).call p = t := Function.update_self _ _ _

theorem setFile_self (s : Sys N) (n : N) (f : List UInt8) (p : Nat) (t : Stage N) :
    ((s.setFile n f).setCall p t).disk n = some f := Function.update_self _ _ _

namespace Demo

/-- a server with two files -/
def server : String → Option (List UInt8)
  | "in.grib" => some [71, 82, 73, 66]
  | "out.grib" => some [55]
  | _ => none

/-- one of the files is here already, in an older edition -/
def disk : String → Option (List UInt8)
  | "out.grib" => some [54]
  | _ => none

def asked : Nat → List String := fun _ => ["in.grib", "out.grib"]

/-- Call 0 has written two bytes of the first file. -/
theorem half : ∃ s, Reachable server disk asked s ∧ s.disk "in.grib" = some [71, 82] ∧ s.disk "out.grib" = some [54] ∧
    s.call 0 = .writing "in.grib" [71, 82, 73, 66] 2 ["out.grib"] [] ∧
    ∀ p, p ≠ 0 → s.call p = .look ["in.grib", "out.grib"] [] := by
  have r1 : Reachable server disk asked _ := (Reachable.init).step
    (.absent 0 (n := "in.grib") (todo := ["out.grib"]) (got := []) rfl rfl)
  have r2 := r1.step (.answer 0 (c := [71, 82, 73, 66]) (setCall_self _ _ _) rfl)
  have r3 := r2.step (.openFile 0 (setCall_self _ _ _))
  have r4 := r3.step (.write 0 2 (setCall_self _ _ _) (setFile_self _ _ _ _ _) (by decide))
  refine ⟨_, r4, setFile_self _ _ _ _ _, ?_, setCall_self _ _ _, ?_⟩
  · rfl
  · intro p hp
    simp only [Sys.setCall, Sys.setFile, init, asked]
    rw [Function.update_of_ne hp, Function.update_of_ne hp, Function.update_of_ne hp, Function.update_of_ne hp]

/-- Call 0, alone, gets both files: the first from the server, the second as it was. -/
theorem whole : ∃ s, Reachable server disk asked s ∧ s.call 0 = .returned ["in.grib", "out.grib"] ∧
    (∀ n, ¬ s.Busy n) ∧ ∀ n, ¬ s.Hurt n := by
  obtain ⟨s, hr, h1, h2, h3, h4⟩ := half
  have r := ((((hr.step (.write 0 2 h3 h1 (by decide))).step (.close 0 (setCall_self _ _ _))).step
    (.there 0 (setCall_self _ _ _) (f := [54]) h2)).step (.done 0 (setCall_self _ _ _)))
  refine ⟨_, r, setCall_self _ _ _, ?_, ?_⟩
  · rintro n ⟨p, c, off, todo, got, hq⟩
    by_cases e : p = 0
    · subst e
      simp only [Sys.setCall, Function.update_self] at hq
      cases hq
    · simp only [Sys.setCall, Sys.setFile] at hq
      rw [Function.update_of_ne e, Function.update_of_ne e, Function.update_of_ne e, Function.update_of_ne e, h4 p e] at hq
      cases hq
  · rintro n ⟨p, hq⟩
    by_cases e : p = 0
    · subst e
      simp only [Sys.setCall, Function.update_self] at hq
      cases hq
    · simp only [Sys.setCall, Sys.setFile] at hq
      rw [Function.update_of_ne e, Function.update_of_ne e, Function.update_of_ne e, Function.update_of_ne e, h4 p e] at hq
      cases hq

end Demo

/-- `C148_files_partial`, `C148_returns_partial`: the states exist. -/
example : ∃ s, Reachable Demo.server Demo.disk Demo.asked s ∧ s.disk "out.grib" = some [54] ∧
    ∃ f, s.disk "in.grib" = some f ∧ f = [71, 82, 73, 66] := by
  obtain ⟨s, hr, h1, h2, h3⟩ := Demo.whole
  refine ⟨s, hr, (C148_files_partial hr _).1 _ rfl, ?_⟩
  obtain ⟨f, hf, h | h⟩ := (C148_returns_partial hr 0 _ h1).2 "in.grib" (by simp) (h2 _) (h3 _)
  · cases h
  · exact ⟨f, hf, (Option.some.inj h.2).symm⟩

/-- `C148_shape`: two names give a list, one name a name. -/
example : answerOf (Arg.many ["a", "b"]).names = .many ["a", "b"] ∧ answerOf (Arg.one "a").names = .one "a" := ⟨rfl, rfl⟩

/-- The full statement (a call that returns gives files as on the server, in the shape of the question) is false of the
code: a call that runs while another one writes returns half a file; so does every later call after a killed one; and a
list of one name is answered with a bare path. -/
theorem C148_refuted :
    (∃ s : Sys String, Reachable Demo.server Demo.disk Demo.asked s ∧ (∀ n, ¬ s.Hurt n) ∧
      s.call 1 = .returned ["in.grib", "out.grib"] ∧ s.disk "in.grib" = some [71, 82]) ∧
    (∃ s : Sys String, Reachable Demo.server Demo.disk Demo.asked s ∧ (∀ n, ¬ s.Busy n) ∧
      s.call 1 = .returned ["in.grib", "out.grib"] ∧ s.disk "in.grib" = some [71, 82]) ∧
    answerOf (Arg.many ["a"]).names = .one "a" := by
  obtain ⟨s, hr, h1, h2, h3, h4⟩ := Demo.half
  refine ⟨?_, ?_, rfl⟩
  · have r := (((hr.step (.there 1 (h4 1 (by decide)) h1)).step (.there 1 (setCall_self _ _ _) (f := [54]) h2)).step
      (.done 1 (setCall_self _ _ _)))
    refine ⟨_, r, ?_, setCall_self _ _ _, h1⟩
    rintro n ⟨p, hq⟩
    simp only [Sys.setCall] at hq
    by_cases e : p = 1
    · subst e; rw [Function.update_self] at hq; cases hq
    · rw [Function.update_of_ne e, Function.update_of_ne e, Function.update_of_ne e] at hq
      by_cases e0 : p = 0
      · subst e0; rw [h3] at hq; cases hq
      · rw [h4 p e0] at hq; cases hq
  · have r0 := hr.step (.kill 0)
    have hc : (s.setCall 0 (.killed (s.call 0).victim)).call 1 = .look ["in.grib", "out.grib"] [] := by
      simp only [Sys.setCall]
      rw [Function.update_of_ne (by decide)]
      exact h4 1 (by decide)
    have r := (((r0.step (.there 1 hc (f := [71, 82]) h1)).step (.there 1 (setCall_self _ _ _) (f := [54]) h2)).step
      (.done 1 (setCall_self _ _ _)))
    refine ⟨_, r, ?_, setCall_self _ _ _, h1⟩
    rintro n ⟨p, c, off, todo, got, hq⟩
    simp only [Sys.setCall] at hq
    by_cases e : p = 1
    · subst e; rw [Function.update_self] at hq; cases hq
    · rw [Function.update_of_ne e, Function.update_of_ne e, Function.update_of_ne e] at hq
      by_cases e0 : p = 0
      · subst e0; rw [Function.update_self] at hq; cases hq
      · rw [Function.update_of_ne e0, h4 p e0] at hq; cases hq

end Verif.Testing.Fetch
