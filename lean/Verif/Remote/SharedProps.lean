import Verif.Remote.Shared
import Verif.Remote.DoubleProps
import Verif.DiskCache.CreateProps2
import Verif.DiskCache.CreateProps3
import Mathlib.Logic.Relation

/-!
# Processes that share a disk cache, to the values in doubles (C145)
-/

namespace Verif.DiskCache.Create

theorem run_snoc (s : Sys) (h : List Act) (a : Act) : s.run (h ++ [a]) = (s.run h).act a := by
  unfold Sys.run
  rw [List.foldl_append]
  rfl

theorem calm_append {s : Sys} {h l : List Act} (hc : Calm s (h ++ l)) : Calm s h := by
  induction h generalizing s with
  | nil => trivial
  | cons a h ih => exact ⟨hc.1, ih hc.2⟩

theorem lasting_append {s : Sys} {h l : List Act} (hc : Lasting s (h ++ l)) : Lasting s h := by
  induction h generalizing s with
  | nil => trivial
  | cons a h ih => exact ⟨hc.1, ih hc.2⟩

theorem lasting_last {s : Sys} {h : List Act} {a : Act} (hc : Lasting s (h ++ [a])) : (s.run h).removes a = false := by
  induction h generalizing s with
  | nil => exact hc.1
  | cons b h ih => exact ih hc.2

/-- Only a crash brings a process back to the beginning. -/
theorem act_not_idle (s : Sys) (a : Act) (p : Nat) (hc : a ≠ .crash p) (h : s.pc p ≠ .idle) : (s.act a).pc p ≠ .idle := by
  have pcg : ∀ (t : Sys) (q : Nat) (c : Pc), t.procs = s.procs → c ≠ .idle → (t.goto q c).pc p ≠ .idle := by
    intro t q c ht hci
    rw [pc_goto]
    split
    · exact hci
    · show (t.procs p).pc ≠ .idle
      rw [ht]; exact h
  cases a with
  | start q f b =>
    show (s.start q f b).pc p ≠ .idle
    unfold Sys.start
    split
    · show (Function.update s.procs q ⟨.register, f, b⟩ p).pc ≠ .idle
      by_cases hq : p = q
      · subst hq; simp
      · rw [Function.update_of_ne hq]; exact h
    · exact h
  | go q =>
    show (s.go q).pc p ≠ .idle
    unfold Sys.go
    split
    · exact h
    · exact pcg _ _ _ rfl (by simp)
    · refine pcg _ _ _ rfl ?_
      split <;> simp
    · exact pcg _ _ _ rfl (by simp)
    · exact pcg _ _ _ rfl (by simp)
    · exact pcg _ _ _ rfl (by simp)
    · refine pcg _ _ _ rfl ?_
      split <;> simp
    · unfold Sys.openLock
      split
      · exact pcg _ _ _ rfl (by simp)
      · exact pcg _ _ _ rfl (by simp)
    · split
      · exact pcg _ _ _ rfl (by simp)
      · exact pcg _ _ _ rfl (by simp)
    · refine pcg _ _ _ rfl ?_
      split <;> simp
    · unfold Sys.openTmp
      split
      · exact pcg _ _ _ rfl (by simp)
      · exact pcg _ _ _ rfl (by simp)
    · exact pcg _ _ _ rfl (by simp)
    · exact pcg _ _ _ rfl (by simp)
    · unfold Sys.publish
      split
      · exact pcg _ _ _ rfl (by simp)
      · exact pcg _ _ _ rfl (by simp)
    · unfold Sys.record
      split
      · exact pcg _ _ _ rfl (by simp)
      · exact pcg _ _ _ rfl (by simp)
    · exact pcg _ _ _ rfl (by simp)
    · exact pcg _ _ _ rfl (by simp)
    · exact h
    · exact h
  | fail q =>
    show (s.failing q).pc p ≠ .idle
    unfold Sys.failing
    split
    · exact pcg _ _ _ rfl (by simp)
    · exact pcg _ _ _ rfl (by simp)
    · exact h
  | crash q =>
    show ((Sys.goto _ q .idle).pc p) ≠ .idle
    rw [pc_goto, if_neg (by rintro rfl; exact hc rfl)]
    exact h
  | house =>
    show s.house.pc p ≠ .idle
    unfold Sys.house
    split <;> exact h
  | clean =>
    show s.clean.pc p ≠ .idle
    unfold Sys.clean Sys.house
    split
    · exact h
    · split <;> exact h
  | _ => exact h

/-- When nothing is removed, a returned path has its file, and only a failing `create` lets `cache_file` fail. -/
structure Kept (h : List Act) (s : Sys) : Prop where
  done : ∀ p, s.pc p = .done → s.file.isSome = true
  failed : ∀ p, s.pc p = .failed → Act.fail p ∈ h

theorem Kept.goto {h : List Act} {s t : Sys} (k : Kept h s) (p : Nat) (c : Pc) (hp : t.procs = s.procs)
    (hf : s.file.isSome = true → t.file.isSome = true) (hd : c = .done → t.file.isSome = true) (hx : c = .failed → Act.fail p ∈ h) : Kept h (t.goto p c) where
  done q hq := by
    rw [pc_goto] at hq
    show t.file.isSome = true
    split at hq
    · exact hd hq
    · refine hf (k.done q ?_)
      show (s.procs q).pc = .done
      rw [← hp]; exact hq
  failed q hq := by
    rw [pc_goto] at hq
    split at hq
    · rename_i e; subst e; exact hx hq
    · refine k.failed q ?_
      show (s.procs q).pc = .failed
      rw [← hp]; exact hq

theorem Kept.go {h : List Act} {s : Sys} (g : Good h s) (k : Kept h s) (p : Nat) (hn : s.pc p ≠ .dropFile) : Kept h (s.go p) := by
  have hfile := file_go g p hn
  cases hp : s.pc p with
  | idle => unfold Sys.go; rw [hp]; exact k
  | done => unfold Sys.go; rw [hp]; exact k
  | failed => unfold Sys.go; rw [hp]; exact k
  | dropFile => exact absurd hp hn
  | register => unfold Sys.go; rw [hp]; exact k.goto _ _ rfl id (by simp) (by simp)
  | look =>
    unfold Sys.go; rw [hp]
    refine k.goto _ _ rfl id ?_ ?_
    · split <;> simp
    · split <;> simp
  | dropRow => unfold Sys.go; rw [hp]; exact k.goto _ _ rfl id (by simp) (by simp)
  | register2 => unfold Sys.go; rw [hp]; exact k.goto _ _ rfl id (by simp) (by simp)
  | look2 =>
    unfold Sys.go; rw [hp]
    refine k.goto _ _ rfl id ?_ ?_
    · split
      · exact fun _ => by assumption
      · simp
    · split <;> simp
  | openLock =>
    unfold Sys.go; rw [hp]
    simp only
    unfold Sys.openLock
    split
    · exact k.goto _ _ rfl id (by simp) (by simp)
    · exact k.goto _ _ rfl id (by simp) (by simp)
  | tryLock i =>
    unfold Sys.go; rw [hp]
    simp only
    split
    · exact k.goto _ _ rfl id (by simp) (by simp)
    · exact k.goto _ _ rfl id (by simp) (by simp)
  | check i =>
    unfold Sys.go; rw [hp]
    refine k.goto _ _ rfl id ?_ ?_
    · split <;> simp
    · split <;> simp
  | create i =>
    unfold Sys.go; rw [hp]
    simp only
    unfold Sys.openTmp
    split
    · exact k.goto _ _ rfl id (by simp) (by simp)
    · exact k.goto _ _ rfl id (by simp) (by simp)
  | writing i f off rest =>
    unfold Sys.go; rw [hp]
    cases rest with
    | nil => exact k.goto _ _ rfl id (by simp) (by simp)
    | cons c rest => exact k.goto _ _ rfl id (by simp) (by simp)
  | rename i =>
    have ho := g.own p
    unfold Own at ho
    rw [hp] at ho
    obtain ⟨f, h1, _⟩ := ho
    unfold Sys.go; rw [hp]
    simp only
    unfold Sys.publish
    rw [h1]
    exact k.goto _ _ rfl (fun _ => rfl) (by simp) (by simp)
  | update i =>
    unfold Sys.go; rw [hp]
    simp only
    unfold Sys.record
    cases hf : s.file with
    | none => exact absurd (g.settled hf p) (by rw [hp]; simp [Pc.after])
    | some f => exact k.goto _ _ rfl (fun _ => rfl) (by simp) (by simp)
  | release i => unfold Sys.go; rw [hp]; exact k.goto _ _ rfl id (by simp) (by simp)
  | unlink =>
    unfold Sys.go; rw [hp]
    refine k.goto _ _ rfl id (fun _ => ?_) (by simp)
    cases hf : s.file with
    | none => exact absurd (g.settled hf p) (by rw [hp]; simp [Pc.after])
    | some f => rfl

theorem Kept.more {h l : List Act} {s : Sys} (k : Kept h s) : Kept (h ++ l) s := ⟨k.done, fun p hp => List.mem_append_left _ (k.failed p hp)⟩

theorem Kept.same {h l : List Act} {s t : Sys} (k : Kept h s) (hp : t.procs = s.procs) (hf : t.file = s.file) : Kept (h ++ l) t where
  done p h := by rw [hf]; exact k.done p (by show (s.procs p).pc = _; rw [← hp]; exact h)
  failed p h := List.mem_append_left _ (k.failed p (by show (s.procs p).pc = _; rw [← hp]; exact h))

theorem Kept.act {h : List Act} {s : Sys} (g : Good h s) (k : Kept h s) (a : Act) (hr : s.removes a = false) : Kept (h ++ [a]) (s.act a) := by
  cases a with
  | start q f b =>
    show Kept _ (s.start q f b)
    unfold Sys.start
    split
    · refine ⟨fun p hp => ?_, fun p hp => ?_⟩
      · by_cases hq : p = q
        · subst hq; simp [Sys.pc] at hp
        · refine k.done p ?_
          simpa [Sys.pc, Function.update_of_ne hq] using hp
      · by_cases hq : p = q
        · subst hq; simp [Sys.pc] at hp
        · refine List.mem_append_left _ (k.failed p ?_)
          simpa [Sys.pc, Function.update_of_ne hq] using hp
    · exact k.more
  | go q => exact (k.go g q (by simpa [Sys.removes] using hr)).more
  | fail q =>
    show Kept _ (s.failing q)
    unfold Sys.failing
    split
    · exact k.more.goto _ _ rfl id (by simp) (by simp)
    · exact k.more.goto _ _ rfl id (by simp) (by simp)
    · exact k.more
  | crash q =>
    show Kept _ (Sys.goto _ q .idle)
    exact k.more.goto _ _ rfl id (by simp) (by simp)
  | house =>
    show Kept _ s.house
    unfold Sys.house
    split <;> exact k.same rfl rfl
  | clean =>
    show Kept _ s.clean
    unfold Sys.clean Sys.house
    split
    · exact k.same rfl rfl
    · split <;> exact k.same rfl rfl
  | forget => exact k.same rfl rfl
  | evict => cases hr
  | evictTmp => cases hr
  | evictLock => cases hr

theorem kept_run (h : List Act) (hl : Lasting Sys.init h) : Kept h (Sys.init.run h) := by
  induction h using List.reverseRecOn with
  | nil => exact ⟨fun p hp => (by cases hp), fun p hp => (by cases hp)⟩
  | append_singleton h a ih =>
    have hl' := lasting_append hl
    have g := good_run good_init h hl'.calm
    rw [List.nil_append] at g
    rw [run_snoc]
    exact (ih hl').act g a (lasting_last hl)

end Verif.DiskCache.Create

namespace Verif.Remote.Shared
open Verif.GridSpec Verif.Regrid Verif.DiskCache

variable {S : Setting (Fp double) Create.Body} {ix : Index.Index}

/-! ## Specification -/

/-- Some call of some process would have written exactly this for the URL: the server has sent it. -/
def Sent (s : Sys (Fp double)) (url : String) (b : Create.Body) : Prop := ∃ p force, Create.Act.start p force b ∈ s.acts url

/-- The call's own download fails, or something of that URL is removed from the cache. -/
def Disturbed (s : Sys (Fp double)) (p : Nat) (url : String) : Prop := Create.Act.fail p ∈ s.acts url ∨ ¬Create.Lasting Create.Sys.init (s.acts url)

/-- Documented grids. -/
structure Documented (S : Setting (Fp double) Create.Body) (c : Req (Fp double)) : Prop where
  plain : GridSpec.Plain S.E.P c.di ∧ GridSpec.Plain S.E.P c.dO
  usable : Usable S.world c.di ∧ Usable S.world c.dO

/-- Whatever the processes did, in whatever order. -/
def Reachable (S : Setting (Fp double) Create.Body) (ix : Index.Index) (s : Sys (Fp double)) : Prop := Relation.ReflTransGen (Step S ix) init s

/-! ## Lemmas -/

def Grows (s s' : Sys (Fp double)) : Prop := ∀ u, ∃ l, s'.acts u = s.acts u ++ l

theorem Sent.grows {s s' : Sys (Fp double)} (hg : Grows s s') {u : String} {b : Create.Body} (h : Sent s u b) : Sent s' u b := by
  obtain ⟨p, f, h⟩ := h
  obtain ⟨l, hl⟩ := hg u
  exact ⟨p, f, by rw [hl]; exact List.mem_append_left _ h⟩

theorem Disturbed.grows {s s' : Sys (Fp double)} (hg : Grows s s') {p : Nat} {u : String} (h : Disturbed s p u) : Disturbed s' p u := by
  obtain ⟨l, hl⟩ := hg u
  rcases h with h | h
  · exact .inl (by rw [hl]; exact List.mem_append_left _ h)
  · exact .inr (by rw [hl]; exact fun h' => h (Create.lasting_append h'))

theorem grows_refl (s : Sys (Fp double)) : Grows s s := fun _ => ⟨[], by simp⟩

theorem grows_add (f : String → List Create.Act) (url : String) (a : Create.Act) (u : String) : ∃ l, addAct f url a u = f u ++ l := by
  unfold addAct
  split
  · exact ⟨[a], rfl⟩
  · exact ⟨[], by simp⟩

/-- Steps only add to what has happened. -/
theorem step_grows {s s' : Sys (Fp double)} (h : Step S ix s s') : Grows s s' ∧ ∀ x ∈ s.begun, x ∈ s'.begun := by
  cases h with
  | unfound p c res hp h => exact ⟨fun u => ⟨[], by simp⟩, fun x hx => List.mem_cons_of_mem _ hx⟩
  | hit p c q d hp hq hd => exact ⟨fun u => ⟨[], by simp⟩, fun x hx => List.mem_cons_of_mem _ hx⟩
  | fetch p c q e path body hp hq he => exact ⟨grows_add _ _ _, fun x hx => List.mem_cons_of_mem _ hx⟩
  | inner url a ha => exact ⟨grows_add _ _ _, fun x hx => hx⟩
  | loaded p c q e url b hp hd hb => exact ⟨fun u => ⟨[], by simp⟩, fun x hx => hx⟩
  | gone p c q e url hp hd hb => exact ⟨fun u => ⟨[], by simp⟩, fun x hx => hx⟩
  | failed p c q e url hp hd => exact ⟨fun u => ⟨[], by simp⟩, fun x hx => hx⟩
  | forget p items hi => exact ⟨fun u => ⟨[], by simp⟩, fun x hx => hx⟩
  | crash p => exact ⟨fun u => ⟨[_], rfl⟩, fun x hx => hx⟩

/-- A process inside `cache_file` is there for the entry of its call. -/
def Right (S : Setting (Fp double) Create.Body) (ix : Index.Index) (s : Sys (Fp double)) : Prop :=
  ∀ p c q e url, s.stage p = .waiting c q e url →
    (s.disk url).pc p ≠ .idle ∧ (p, c) ∈ s.begun ∧ asked S c = .ok q ∧ ∃ path, located S ix q = .ok (some (e, path)) ∧ url = urlOf S path

theorem right_step {s s' : Sys (Fp double)} (hr : Right S ix s) (h : Step S ix s s') : Right S ix s' := by
  have disk_add : ∀ (u url : String) (a : Create.Act) (p : Nat), a ≠ .crash p → (s.disk u).pc p ≠ .idle →
      (Create.Sys.init.run (addAct s.acts url a u)).pc p ≠ .idle := by
    intro u url a p ha hp
    unfold addAct
    split
    · rw [Create.run_snoc]; exact Create.act_not_idle _ _ _ ha hp
    · exact hp
  have mono := (step_grows h).2
  have stay : ∀ p0 : Nat, (∀ p, p ≠ p0 → s'.stage p = s.stage p) → (∀ p u, p ≠ p0 → (s.disk u).pc p ≠ .idle → (s'.disk u).pc p ≠ .idle) →
      (∀ c q e url, s'.stage p0 = .waiting c q e url →
        (s'.disk url).pc p0 ≠ .idle ∧ (p0, c) ∈ s'.begun ∧ asked S c = .ok q ∧ ∃ path, located S ix q = .ok (some (e, path)) ∧ url = urlOf S path) →
      Right S ix s' := by
    intro p0 h1 h2 h3 p c q e url hp
    by_cases h0 : p = p0
    · subst h0; exact h3 c q e url hp
    · rw [h1 p h0] at hp
      obtain ⟨a1, a2, a3, a4⟩ := hr p c q e url hp
      exact ⟨h2 p url h0 a1, mono _ a2, a3, a4⟩
  have idle_at : ∀ p : Nat, s'.stage = setStage s.stage p .idle → s'.acts = s.acts → Right S ix s' := by
    intro p h1 h2
    refine stay p (fun q hq => by rw [h1]; exact if_neg hq) (fun q u hq hpc => by unfold Sys.disk; rw [h2]; exact hpc) ?_
    intro c q e url hs
    rw [h1] at hs
    simp [setStage] at hs
  have same : s'.stage = s.stage → (∀ p u, (s.disk u).pc p ≠ .idle → (s'.disk u).pc p ≠ .idle) → Right S ix s' := by
    intro h1 h2 p c q e url hp
    rw [h1] at hp
    obtain ⟨a1, a2, a3, a4⟩ := hr p c q e url hp
    exact ⟨h2 p url a1, mono _ a2, a3, a4⟩
  cases h with
  | unfound p c res hp h => exact same rfl (fun _ _ h => h)
  | hit p c q d hp hq hd => exact same rfl (fun _ _ h => h)
  | forget p items hi => exact same rfl (fun _ _ h => h)
  | inner url a ha => exact same rfl (fun p u h => disk_add u url a p (by rintro rfl; exact ha) h)
  | loaded p c q e url b hp hd hb => exact idle_at p rfl rfl
  | gone p c q e url hp hd hb => exact idle_at p rfl rfl
  | failed p c q e url hp hd => exact idle_at p rfl rfl
  | crash p =>
    refine stay p (fun q hq => if_neg hq) ?_ ?_
    · intro q u hq hpc
      show (Create.Sys.init.run (s.acts u ++ [.crash p])).pc q ≠ .idle
      rw [Create.run_snoc]
      exact Create.act_not_idle _ _ _ (by intro e; cases e; exact hq rfl) hpc
    · intro c q e url hs
      simp [setStage] at hs
  | fetch p c q e path body hp hq he =>
    refine stay p (fun q hq => if_neg hq) ?_ ?_
    · intro q u hq hpc
      exact disk_add u _ _ q (by intro h; cases h) hpc
    · intro c' q' e' url' hs
      simp only [setStage, if_true] at hs
      cases hs
      refine ⟨?_, List.mem_cons_self, hq, path, he, rfl⟩
      show (Create.Sys.init.run (addAct s.acts (urlOf S path) (.start p false body) (urlOf S path))).pc p ≠ .idle
      simp only [addAct, if_true]
      rw [Create.run_snoc]
      show (Create.Sys.start _ p false body).pc p ≠ .idle
      unfold Create.Sys.start
      split
      · simp [Create.Sys.pc]
      · rename_i hne
        intro h0
        rw [h0] at hne
        exact hne rfl

/-- What an in-memory cache holds. -/
def Held (S : Setting (Fp double) Create.Body) (ix : Index.Index) (s : Sys (Fp double)) : Prop :=
  ∀ p k d, (k, d) ∈ s.mem p → ∃ p' c q e path b, (p', c) ∈ s.begun ∧ asked S c = .ok q ∧ S.world.key q = k ∧ located S ix q = .ok (some (e, path)) ∧
    Sent s (urlOf S path) b ∧ readOut S e b = .ok d

/-- What a call has come to. -/
def Came (S : Setting (Fp double) Create.Body) (ix : Index.Index) (s : Sys (Fp double)) (p : Nat) (c : Req (Fp double))
    (res : Except Regrid.Err (Arr (Fp double) × Dict)) : Prop :=
  (∃ e, asked S c = .error e ∧ res = .error e) ∨ ∃ q, asked S c = .ok q ∧
    ((∃ e, located S ix q = .error e ∧ res = .error e) ∨ (located S ix q = .ok none ∧ res = applyWeights none c.x c.dO) ∨
      ∃ e path, located S ix q = .ok (some (e, path)) ∧
        ((res = .error .other ∧ Disturbed s p (urlOf S path)) ∨ ∃ b, Sent s (urlOf S path) b ∧ res = product c (readOut S e b)))

theorem Came.grows {s s' : Sys (Fp double)} (hg : Grows s s') {p : Nat} {c : Req (Fp double)} {res} (h : Came S ix s p c res) : Came S ix s' p c res := by
  rcases h with h | ⟨q, hq, h | h | ⟨e, path, he, h | ⟨b, hb, h⟩⟩⟩
  · exact .inl h
  · exact .inr ⟨q, hq, .inl h⟩
  · exact .inr ⟨q, hq, .inr (.inl h)⟩
  · exact .inr ⟨q, hq, .inr (.inr ⟨e, path, he, .inl ⟨h.1, h.2.grows hg⟩⟩)⟩
  · exact .inr ⟨q, hq, .inr (.inr ⟨e, path, he, .inr ⟨b, hb.grows hg, h⟩⟩)⟩

def Results (S : Setting (Fp double) Create.Body) (ix : Index.Index) (s : Sys (Fp double)) : Prop :=
  ∀ p c res, (p, c, res) ∈ s.ended → (p, c) ∈ s.begun ∧ Came S ix s p c res

theorem made_of {c : Req (Fp double)} {q : Request} (hd : Documented S c) (hq : asked S c = .ok q) : Made S.world q := by
  unfold asked at hq
  split at hq
  · cases hq
  · rename_i gi hi
    split at hq
    · cases hq
    · rename_i go hO
      cases hq
      exact ⟨c.di, c.dO, hd.usable.1, hd.usable.2, hi, hO⟩

theorem results_step (hw : S.world.Sane) {s s' : Sys (Fp double)} (hr : Right S ix s) (hh : Held S ix s) (hres : Results S ix s) (h : Step S ix s s')
    (hdoc : ∀ x ∈ s'.begun, Documented S x.2) (hc : ∀ u, Create.Calm Create.Sys.init (s.acts u)) : Held S ix s' ∧ Results S ix s' := by
  obtain ⟨hg, mono⟩ := step_grows h
  have held : s'.mem = s.mem → Held S ix s' := by
    intro hm p k d hk
    rw [hm] at hk
    obtain ⟨p', c, q, e, path, b, a1, a2, a3, a4, a5, a6⟩ := hh p k d hk
    exact ⟨p', c, q, e, path, b, mono _ a1, a2, a3, a4, a5.grows hg, a6⟩
  have held' : ∀ p items, s'.mem = setMem s.mem p items → (∀ i ∈ items, i ∈ s.mem p) → Held S ix s' := by
    intro p items hm hi p' k d hk
    rw [hm] at hk
    have : (k, d) ∈ s.mem p' := by
      unfold setMem at hk
      split at hk
      · rename_i e; rw [e]; exact hi _ hk
      · exact hk
    obtain ⟨p'', c, q, e, path, b, a1, a2, a3, a4, a5, a6⟩ := hh p' k d this
    exact ⟨p'', c, q, e, path, b, mono _ a1, a2, a3, a4, a5.grows hg, a6⟩
  have results : s'.ended = s.ended → Results S ix s' := by
    intro he p c res hm
    rw [he] at hm
    exact ⟨mono _ (hres p c res hm).1, (hres p c res hm).2.grows hg⟩
  have results' : ∀ p c res, s'.ended = (p, c, res) :: s.ended → (p, c) ∈ s'.begun → Came S ix s' p c res → Results S ix s' := by
    intro p c res he hb hcame p' c' res' hm
    rw [he] at hm
    rcases List.mem_cons.1 hm with hm | hm
    · cases hm; exact ⟨hb, hcame⟩
    · exact ⟨mono _ (hres p' c' res' hm).1, (hres p' c' res' hm).2.grows hg⟩
  have came : ∀ url b, (s.disk url).content = some b → Sent s url b := fun url b hb => Create.C57_complete_partial _ (hc url) b hb
  cases h with
  | unfound p c res hp h =>
    refine ⟨held rfl, results' p c res rfl List.mem_cons_self ?_⟩
    rcases h with h | ⟨q, hq, h | h⟩
    · exact .inl h
    · exact .inr ⟨q, hq, .inl h⟩
    · exact .inr ⟨q, hq, .inr (.inl h)⟩
  | hit p c q d hp hq hd =>
    refine ⟨held rfl, results' p c _ rfl List.mem_cons_self ?_⟩
    obtain ⟨p', c', q', e, path, b, a1, a2, a3, a4, a5, a6⟩ := hh p _ d hd
    have m1 := made_of (hdoc _ (mono _ a1)) a2
    have m2 := made_of (hdoc (p, c) List.mem_cons_self) hq
    have := key_inj S.world hw q' q m1 m2 a3
    subst this
    exact .inr ⟨q', hq, .inr (.inr ⟨e, path, a4, .inr ⟨b, a5.grows hg, by rw [a6]; rfl⟩⟩)⟩
  | fetch p c q e path body hp hq he => exact ⟨held rfl, results rfl⟩
  | inner url a ha => exact ⟨held rfl, results rfl⟩
  | forget p items hi => exact ⟨held' p items rfl hi, results rfl⟩
  | crash p => exact ⟨held' p [] rfl (by simp), results rfl⟩
  | loaded p c q e url b hp hd hb =>
    obtain ⟨-, r2, r3, path, r4, rfl⟩ := hr p c q e url hp
    refine ⟨?_, results' p c _ rfl r2 (.inr ⟨q, r3, .inr (.inr ⟨e, path, r4, .inr ⟨b, (came _ b hb).grows hg, rfl⟩⟩)⟩)⟩
    cases hro : readOut S e b with
    | error x =>
      have := held' p (s.mem p) (by simp only [hro, kept]) (fun i hi => hi)
      rw [hro] at this
      exact this
    | ok d =>
      intro p' k d' hk
      have hk' : (k, d') ∈ setMem s.mem p ((S.world.key q, d) :: s.mem p) p' := by simpa only [hro, kept] using hk
      unfold setMem at hk'
      split at hk'
      · rename_i hpp
        rcases List.mem_cons.1 hk' with hk' | hk'
        · cases hk'
          exact ⟨p, c, q, e, path, b, r2, r3, rfl, r4, (came _ b hb).grows hg, hro⟩
        · obtain ⟨p'', c, q, e, path, b, a1, a2, a3, a4, a5, a6⟩ := hh p k d' hk'
          exact ⟨p'', c, q, e, path, b, mono _ a1, a2, a3, a4, a5.grows hg, a6⟩
      · obtain ⟨p'', c, q, e, path, b, a1, a2, a3, a4, a5, a6⟩ := hh p' k d' hk'
        exact ⟨p'', c, q, e, path, b, mono _ a1, a2, a3, a4, a5.grows hg, a6⟩
  | gone p c q e url hp hd hb =>
    obtain ⟨-, r2, r3, path, r4, rfl⟩ := hr p c q e url hp
    refine ⟨held rfl, results' p c _ rfl r2 (.inr ⟨q, r3, .inr (.inr ⟨e, path, r4, .inl ⟨rfl, ?_⟩⟩)⟩)⟩
    refine .inr (fun hl => ?_)
    have := (Create.kept_run _ hl).done p hd
    unfold Create.Sys.content at hb
    cases hf : (s.disk (urlOf S path)).file with
    | none => exact absurd this (by rw [show (Create.Sys.init.run _).file = none from hf]; simp)
    | some f => rw [hf] at hb; cases hb
  | failed p c q e url hp hd =>
    obtain ⟨-, r2, r3, path, r4, rfl⟩ := hr p c q e url hp
    refine ⟨held rfl, results' p c _ rfl r2 (.inr ⟨q, r3, .inr (.inr ⟨e, path, r4, .inl ⟨rfl, ?_⟩⟩)⟩)⟩
    by_cases hl : Create.Lasting Create.Sys.init (s.acts (urlOf S path))
    · exact .inl ((Create.kept_run _ hl).failed p hd)
    · exact .inr hl

theorem right_reachable {s : Sys (Fp double)} (h : Reachable S ix s) : Right S ix s := by
  induction h with
  | refl => intro p c q e url h; cases h
  | tail _ h ih => exact right_step ih h

theorem results_reachable (hw : S.world.Sane) {s : Sys (Fp double)} (h : Reachable S ix s) (hdoc : ∀ x ∈ s.begun, Documented S x.2)
    (hc : ∀ u, Create.Calm Create.Sys.init (s.acts u)) : Held S ix s ∧ Results S ix s := by
  induction h with
  | refl => exact ⟨fun p k d h => (by cases h), fun p c res h => (by cases h)⟩
  | tail h0 h ih =>
    obtain ⟨hg, mono⟩ := step_grows h
    have hc' : ∀ u, Create.Calm Create.Sys.init (_ : List Create.Act) := fun u => by
      obtain ⟨l, hl⟩ := hg u
      exact Create.calm_append (by rw [← hl]; exact hc u)
    obtain ⟨h1, h2⟩ := ih (fun x hx => hdoc x (mono x hx)) hc'
    exact results_step hw (right_reachable h0) h1 h2 h hdoc hc'

/-- Steps inside `cache_file`, one after the other. -/
theorem go_many (url : String) (l : List Create.Act) (t : Sys (Fp double)) (hl : ∀ a ∈ l, ∃ q, a = Create.Act.go q) :
    ∃ t', Relation.ReflTransGen (Step S ix) t t' ∧ t'.acts url = t.acts url ++ l ∧ (∀ u, u ≠ url → t'.acts u = t.acts u) ∧ t'.stage = t.stage ∧
      t'.ended = t.ended ∧ t'.begun = t.begun ∧ t'.mem = t.mem := by
  induction l generalizing t with
  | nil => exact ⟨t, .refl, by simp, fun _ _ => rfl, rfl, rfl, rfl, rfl⟩
  | cons a l ih =>
    have hstep : Step S ix t { t with acts := addAct t.acts url a } :=
      .inner t url a (by obtain ⟨q, rfl⟩ := hl a (by simp); trivial)
    obtain ⟨t', h1, h2, h3, h4⟩ := ih { t with acts := addAct t.acts url a } (fun b hb => hl b (by simp [hb]))
    refine ⟨t', .head hstep h1, ?_, ?_, h4⟩
    · rw [h2]; simp [addAct]
    · intro u hu; rw [h3 u hu]; simp [addAct, hu]

/-! ## C145 -/

/-- C145: any number of processes that share a disk cache, interleaved in any way inside `cache_file`, crashing, failing and forgetting, with files
removed from the cache while nobody is creating them: every regrid of documented grids that has ended came to what the first entry that answers
gives with weights that were sent whole from the address of that entry, in doubles, point by point; unless its own download failed or the
file was removed: then it is an error. -/
theorem C145_values (hw : S.world.Sane) (ho : Enumerates S.E.order) (hwf : ∀ b z, S.parse b = .ok z → z.WF) (hb : S.base ≠ [])
    (f0 : Index.IndexFile) (es : List (String × Index.Raw)) (hf : Orderly S.E.P f0 es) (hl : Index.load S.E.P f0 = .ok ix)
    (s : Sys (Fp double)) (hs : Reachable S ix s) (hdoc : ∀ x ∈ s.begun, Documented S x.2) (hc : ∀ u, Create.Calm Create.Sys.init (s.acts u))
    (p : Nat) (c : Req (Fp double)) (res : Except Regrid.Err (Arr (Fp double) × Dict)) (hr : (p, c, res) ∈ s.ended) (n : List Char)
    (hm : Regrid.Published c.m n) (hn : Tidy n) :
    ∃ weights, OutcomeD S.E.P es (fun _ => weights) c.x c.di c.dO n res ∧
      ∀ r, Index.First (Index.Answers S.E.P c.di c.dO n) es (some r) →
        (weights = .error .other ∧ Disturbed s p (address S.base n r)) ∨ ∃ b, Sent s (address S.base n r) b ∧ weights = S.parse b := by
  obtain ⟨hbeg, hcame⟩ := (results_reachable hw hs hdoc hc).2 p c res hr
  obtain ⟨⟨pi, pO⟩, -⟩ := hdoc _ hbeg
  obtain ⟨gi, hi⟩ := plain_accepted pi
  obtain ⟨go, hO⟩ := plain_accepted pO
  obtain ⟨ix', o, b1, b2, b3, b4⟩ := orderly_find ho hf pi pO hi hO n
  rw [hl] at b1
  cases b1
  have hasked : asked S c = .ok ⟨gi, go, c.m⟩ := by
    unfold asked
    simp only [hi, hO]
  have hfind : Index.find S.E.P S.E.order ix gi.d go.d (Index.methodAlias c.m) = .ok o := by rw [published_alias hm]; exact b2
  rcases hcame with ⟨e, h, -⟩ | ⟨q, hq, h⟩
  · rw [hasked] at h; cases h
  rw [hasked] at hq
  cases hq
  cases o with
  | none =>
    have hloc : located S ix ⟨gi, go, c.m⟩ = .ok none := by
      unfold located
      simp only [hfind]
    refine ⟨.error .other, ?_, fun r hr => by cases Index.first_unique hr b3⟩
    rcases h with ⟨e, h, -⟩ | ⟨-, rfl⟩ | ⟨e, path, h, -⟩
    · rw [hloc] at h; cases h
    · exact .unavailable b3
    · rw [hloc] at h; cases h
  | some e =>
    obtain ⟨-, shape, c1, c2⟩ := b4 e rfl
    obtain ⟨d1, d2⟩ := first_answers b3
    obtain ⟨t1, t2⟩ := hf.tidy _ d1
    obtain ⟨path, e1, e2⟩ := path_address (S := S) hb (methodIs_of_answers d2) hn t1 t2
    have hloc : located S ix ⟨gi, go, c.m⟩ = .ok (some (e, path)) := by
      unfold located
      simp only [hfind, e1]
    rcases h with ⟨e, h, -⟩ | ⟨h, -⟩ | ⟨e', path', h, h'⟩
    · rw [hloc] at h; cases h
    · rw [hloc] at h; cases h
    · rw [hloc] at h
      cases h
      rw [e2] at h'
      rcases h' with ⟨rfl, hdist⟩ | ⟨b, hsent, rfl⟩
      · refine ⟨.error .other, .unreadable _ _ b3 rfl, fun r hr => ?_⟩
        cases Index.first_unique hr b3
        exact .inl ⟨rfl, hdist⟩
      · refine ⟨S.parse b, outcomeD_of_applied (fun _ z hz => hwf b z hz) ?_, fun r hr => ?_⟩
        · unfold readOut
          cases hz : S.parse b with
          | error x => exact .unreadable _ x b3 rfl
          | ok z =>
            simp only [c2]
            exact .applied _ z shape b3 rfl c1
        · cases Index.first_unique hr b3
          exact .inr ⟨b, hsent, rfl⟩

/-- C145: nobody waits for ever: wherever the processes are, steps of processes inside `cache_file` for the same file are enough for a
waiting call to end. -/
theorem C145_returns (s : Sys (Fp double)) (hs : Reachable S ix s) (p : Nat) (c : Req (Fp double)) (q : Request) (e : Index.Entry) (url : String)
    (hp : s.stage p = .waiting c q e url) :
    ∃ s' h' res, Relation.ReflTransGen (Step S ix) s s' ∧ (∀ a ∈ h', ∃ q, a = Create.Act.go q) ∧ s'.acts url = s.acts url ++ h' ∧
      (∀ u, u ≠ url → s'.acts u = s.acts u) ∧ s'.stage p = .idle ∧ s'.ended = (p, c, res) :: s.ended := by
  obtain ⟨h', hgo, hend⟩ := Create.C140_not_stuck (s.acts url)
  obtain ⟨t, h1, h2, h3, h4, h5, -, -⟩ := go_many (S := S) (ix := ix) url h' s hgo
  have htp : t.stage p = .waiting c q e url := by rw [h4]; exact hp
  have hright := (right_reachable (hs.trans h1)) p c q e url htp
  have hended : ((t.disk url).pc p).ended = true := by
    show ((Create.Sys.init.run (t.acts url)).pc p).ended = true
    rw [h2]; exact hend p
  have hfin : ∃ t' res, Step S ix t t' ∧ t'.acts = t.acts ∧ t'.stage p = .idle ∧ t'.ended = (p, c, res) :: t.ended := by
    cases hpc : (t.disk url).pc p with
    | idle => exact absurd hpc hright.1
    | done =>
      cases hb : (t.disk url).content with
      | none => exact ⟨_, _, .gone t p c q e url htp hpc hb, rfl, by simp [setStage], rfl⟩
      | some b => exact ⟨_, _, .loaded t p c q e url b htp hpc hb, rfl, by simp [setStage], rfl⟩
    | failed => exact ⟨_, _, .failed t p c q e url htp hpc, rfl, by simp [setStage], rfl⟩
    | _ => rw [hpc] at hended; cases hended
  obtain ⟨t', res, k1, k2, k3, k4⟩ := hfin
  exact ⟨t', h', res, h1.tail k1, hgo, by rw [k2, h2], fun u hu => by rw [k2, h3 u hu], k3, by rw [k4, h5]⟩

/-! ## The hypotheses can be met -/

namespace Demo
open Verif.Regrid.Demo Verif.Remote.Demo
open Verif.Index (orca orca_plain)
open Verif.DiskCache.Create (Act steps)

/-- Two contents of the weights file: the weights in doubles, and something else. -/
noncomputable def settingS (P : Py) : Setting (Fp double) Create.Body where
  E := ⟨P, COMPARE_KEYS, Unit, fun _ => ()⟩
  CP := Verif.Config.py
  floatText := floatText
  items := items
  sha := id
  sizeFn := fun _ => 50
  base := "https://x.int/db".toList
  parse := fun b => if b = [7] then .ok demoD else .error .value
  memory := fun _ => some 100

theorem settingS_wf (P : Py) : ∀ b z, (settingS P).parse b = .ok z → z.WF := by
  intro b z h
  by_cases hb : b = [7]
  · simp only [settingS, hb, if_true] at h; cases h; exact demoD_wf
  · simp only [settingS, hb, if_false] at h; cases h

def call : Req (Fp double) := ⟨⟨[2], [.nan, .fin 1]⟩, orca (some shape), orca (some shape), "nn".toList⟩

theorem call_documented (P : Py) : Documented (settingS P) call := ⟨⟨orca_plain P _, orca_plain P _⟩, usable P, usable P⟩

/-- What the processes are going to find. -/
theorem found (P : Py) : ∃ ix q e path, Index.load P file = .ok ix ∧ asked (settingS P) call = .ok q ∧ located (settingS P) ix q = .ok (some (e, path)) ∧
    urlOf (settingS P) path = url ∧ shapeOf e = .ok [3, 1] := by
  obtain ⟨gi, hi⟩ := plain_accepted (orca_plain P (some shape))
  obtain ⟨ix, o, b1, b2, b3, b4⟩ := orderly_find (S := settingS P) (fun _ => Iff.rfl) (file_orderly P) (orca_plain P (some shape)) (orca_plain P (some shape))
    hi hi "nearest-neighbour".toList
  cases o with
  | none => cases Index.first_unique b3 (Remote.Demo.file_first P)
  | some e =>
    have he : e.shown = ("w", raw) := by
      have := Index.first_unique b3 (Remote.Demo.file_first P)
      exact Option.some.inj this
    obtain ⟨-, sh, c1, c2⟩ := b4 e rfl
    obtain ⟨d1, d2⟩ := first_answers b3
    obtain ⟨t1, t2⟩ := (file_orderly P).tidy _ d1
    obtain ⟨path, e1, e2⟩ := path_address (S := settingS P) (base_ok P) (methodIs_of_answers d2) ⟨by decide, by decide⟩ t1 t2
    refine ⟨ix, ⟨gi, gi, "nn".toList⟩, e, path, b1, ?_, ?_, ?_, ?_⟩
    · unfold asked call
      rw [show (settingS P).E.P = P from rfl, hi]
    · unfold located
      simp only [published_alias Regrid.Published.short, b2, e1]
    · rw [e2, he]
      exact address_ok P
    · rw [he] at c1
      rw [c2, shape_unique c1 raw_shape]

/-- Two processes ask for the same weights; the server exchanges the file in between. The first one creates the file while the second one
waits, both get its values, and the first one then regrids again from memory: `C145_values`. -/
example (P : Py) : ∃ ix s y, Index.load P file = .ok ix ∧ Reachable (settingS P) ix s ∧ s.ended = [(0, call, .ok y), (1, call, .ok y), (0, call, .ok y)] ∧
    y.1.elem [0, 0] = some .nan := by
  obtain ⟨ix, q, e, path, hl, hq, he, hu, hsh⟩ := found P
  have r1 : Reachable (settingS P) ix _ := .single (.fetch init 0 call q e path [7] rfl hq he)
  have r2 : Reachable (settingS P) ix _ := r1.tail (.fetch _ 1 call q e path [8] rfl hq he)
  rw [hu] at r2
  have go := fun st (_ : Reachable (settingS P) ix st) => go_many (S := settingS P) (ix := ix) url (steps 0 5 ++ steps 1 5 ++ steps 0 8 ++ steps 1 5) st
    (by intro a ha; simp only [steps, List.mem_append, List.mem_replicate] at ha; grind)
  obtain ⟨t, g1, g2, g3, g4, g5, g6, g7⟩ := go _ r2
  have r3 : Reachable (settingS P) ix t := r2.trans g1
  have ha : t.acts url = [.start 0 false [7], .start 1 false [8]] ++ (steps 0 5 ++ steps 1 5 ++ steps 0 8 ++ steps 1 5) := by
    rw [g2]; simp [addAct, init]
  have ha' : ∀ u, u ≠ url → t.acts u = [] := by
    intro u h; rw [g3 u h]; simp [addAct, init, h]
  have hout : readOut (settingS P) e [7] = .ok (demoD, [3, 1]) := by
    unfold readOut
    simp only [settingS, if_true, hsh]
  obtain ⟨y, hy⟩ : ∃ y, applyWeights (some (demoD, [3, 1])) call.x call.dO = .ok y :=
    ⟨(_, _), (apply_ok' demoD [3, 1] call.x call.dO call.dO _).2 ⟨rfl, rfl, rfl, rfl⟩⟩
  have r4 := r3.tail (.loaded t 0 call q e url [7] (by rw [g4]; simp [setStage]) (by unfold Sys.disk; rw [ha]; decide +kernel)
    (by unfold Sys.disk; rw [ha]; decide +kernel))
  have r5 := r4.tail (.loaded _ 1 call q e url [7] (by simp only [setStage]; rw [g4]; simp [setStage]) (by unfold Sys.disk; simp only [ha]; decide +kernel)
    (by unfold Sys.disk; simp only [ha]; decide +kernel))
  have r6 := r5.tail (.hit _ 0 call q (demoD, [3, 1]) (by simp [setStage]) hq (by simp [setMem, hout, kept]))
  have hended := C145_values (S := settingS P) (world_sane P) (fun _ => Iff.rfl) (settingS_wf P) (base_ok P) file _ (file_orderly P) hl _ r6
    (by
      intro x hx
      simp only [g6, init, List.mem_cons, List.not_mem_nil, or_false] at hx
      rcases hx with rfl | rfl | rfl <;> exact call_documented P)
    (by
      intro u
      show Create.Calm _ (t.acts u)
      by_cases h : u = url
      · subst h
        rw [ha]
        exact Create.Lasting.calm (by decide +kernel)
      · rw [ha' u h]; trivial)
    0 call (.ok y) (by simp only [hout, product, hy, List.mem_cons, true_or]) "nearest-neighbour".toList .short ⟨by decide, by decide⟩
  refine ⟨ix, _, y, hl, r6, ?_, ?_⟩
  · simp only [hout, product, hy, g5, init]
  · obtain ⟨weights, ho, hw⟩ := hended
    cases ho with
    | values r z sh y hf hz hs hx hr h1 h2 h3 =>
      cases Index.first_unique hf (Remote.Demo.file_first P)
      cases shape_unique hs raw_shape
      obtain ⟨v, e1, p1⟩ := h3 [0, 0] (.cons (by decide) (.cons (by decide) .nil))
      rcases hw _ (Remote.Demo.file_first P) with ⟨h, -⟩ | ⟨b, -, h⟩
      · rw [h] at hz; cases hz
      · by_cases hb : b = [7]
        · rw [hz] at h
          simp only [settingS, hb, if_true] at h
          cases h
          exact (by rw [e1, p1.missing 0 ⟨0, by decide, rfl⟩ rfl])
        · rw [hz] at h
          simp only [settingS, hb, if_false] at h
          cases h

/-- `C145_returns`: a process that has just begun to wait. -/
example (P : Py) : ∃ ix s s' res, Reachable (settingS P) ix s ∧ s.ended = [] ∧ Relation.ReflTransGen (Step (settingS P) ix) s s' ∧ s'.ended = [(0, call, res)] := by
  obtain ⟨ix, q, e, path, hl, hq, he, hu, hsh⟩ := found P
  have r1 : Reachable (settingS P) ix _ := .single (.fetch init 0 call q e path [7] rfl hq he)
  obtain ⟨s', h', res, h1, -, -, -, -, h6⟩ := C145_returns _ r1 0 call q e (urlOf (settingS P) path) (by simp [setStage])
  exact ⟨ix, _, s', res, r1, rfl, h1, h6⟩

end Demo

end Verif.Remote.Shared
