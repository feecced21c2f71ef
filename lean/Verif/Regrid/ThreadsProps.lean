import Verif.Regrid.Threads
import Verif.Regrid.StrictProps

/-!
# Regrids of several threads come to what one thread would see (C143)
-/

namespace Verif.Regrid.Threads
open Verif.GridSpec Verif.Index MemCache.Concurrent

variable {α : Type} [Zero α] [Add α] [Mul α]

/-! ## Lemmas -/

section
variable {Q K W S : Type} [LinearOrder K]

/-- The operations that took effect, oldest first. -/
def effects : List (Event Q W S) → List (MemCache.Op Q W S)
  | [] => []
  | .lin _ (.op o) _ :: log => effects log ++ [o]
  | .lin _ .info _ :: log => effects log
  | .call _ _ :: log => effects log
  | .ret _ _ :: log => effects log

theorem seqState_effects (key : Q → K) (sizeFn : W → Nat) (log : List (Event Q W S)) :
    (seqState key sizeFn log : MemCache.Cache K W S) = MemCache.run key sizeFn MemCache.initial (effects log) := by
  induction log with
  | nil => rfl
  | cons ev log ih =>
    cases ev with
    | call => exact ih
    | ret => exact ih
    | lin t o r =>
      cases o with
      | info => exact ih
      | op o =>
        simp only [seqState, seqStep, ih, effects]
        unfold MemCache.run
        rw [List.foldl_append]
        rfl

omit [LinearOrder K] in
theorem replay_called {t : Nat} {log : List (Event Q W S)} {o : COp Q W S} (h : replay t log = some (.called o)) : .call t o ∈ log := by
  induction log with
  | nil => cases h
  | cons ev log ih =>
    cases ev with
    | call u o' =>
      by_cases hu : u = t
      · subst hu
        simp only [replay, if_true] at h
        split at h
        · cases h; simp
        · cases h
      · simp only [replay, if_neg hu] at h
        simp [ih h]
    | lin u o' r =>
      by_cases hu : u = t
      · subst hu
        simp only [replay, if_true] at h
        split at h <;> cases h
      · simp only [replay, if_neg hu] at h
        simp [ih h]
    | ret u r =>
      by_cases hu : u = t
      · subst hu
        simp only [replay, if_true] at h
        split at h <;> cases h
      · simp only [replay, if_neg hu] at h
        simp [ih h]

omit [LinearOrder K] in
theorem replay_effective {t : Nat} {log : List (Event Q W S)} {o : COp Q W S} {r : CRes Q W S} (hm : Matching log)
    (h : replay t log = some (.effective o r)) : ∃ pre post, log = pre ++ .lin t o r :: post := by
  induction log with
  | nil => cases h
  | cons ev log ih =>
    have hm' : Matching log := ⟨fun t o r pre post e => hm.1 t o r (ev :: pre) post (by rw [e]; rfl), fun t r pre post e => hm.2 t r (ev :: pre) post (by rw [e]; rfl)⟩
    cases ev with
    | call u o' =>
      by_cases hu : u = t
      · subst hu
        simp only [replay, if_true] at h
        split at h <;> cases h
      · simp only [replay, if_neg hu] at h
        obtain ⟨pre, post, e⟩ := ih hm' h
        exact ⟨_ :: pre, post, by rw [e]; rfl⟩
    | lin u o' r' =>
      by_cases hu : u = t
      · subst hu
        have h0 := hm.1 u o' r' [] log rfl
        simp only [replay, if_true, h0] at h
        cases h
        exact ⟨[], log, rfl⟩
      · simp only [replay, if_neg hu] at h
        obtain ⟨pre, post, e⟩ := ih hm' h
        exact ⟨_ :: pre, post, by rw [e]; rfl⟩
    | ret u r' =>
      by_cases hu : u = t
      · subst hu
        simp only [replay, if_true] at h
        split at h <;> cases h
      · simp only [replay, if_neg hu] at h
        obtain ⟨pre, post, e⟩ := ih hm' h
        exact ⟨_ :: pre, post, by rw [e]; rfl⟩

omit [LinearOrder K] in
/-- What took effect had been called. -/
theorem effects_called {log : List (Event Q W S)} (hm : Matching log) {o : MemCache.Op Q W S} (h : o ∈ effects log) : ∃ t, .call t (.op o) ∈ log := by
  induction log with
  | nil => cases h
  | cons ev log ih =>
    have hm' : Matching log := ⟨fun t o r pre post e => hm.1 t o r (ev :: pre) post (by rw [e]; rfl), fun t r pre post e => hm.2 t r (ev :: pre) post (by rw [e]; rfl)⟩
    have up : (∃ t, .call t (.op o) ∈ log) → ∃ t, .call t (.op o) ∈ ev :: log := fun ⟨t, h⟩ => ⟨t, by simp [h]⟩
    cases ev with
    | call u o' => exact up (ih hm' h)
    | ret u r => exact up (ih hm' h)
    | lin u o' r =>
      cases o' with
      | info => exact up (ih hm' h)
      | op o' =>
        simp only [effects, List.mem_append, List.mem_singleton] at h
        rcases h with h | rfl
        · exact up (ih hm' h)
        · exact up ⟨u, replay_called (hm.1 u _ r [] log rfl)⟩

end

/-- What is known of an ended regrid. -/
def Good (w : World) (inv : Inventory α) (begun : List (PipeOp α)) (call : PipeOp α) (res : Except Err (Arr α × Dict)) : Prop :=
  ∀ x di dO m, call = .regrid x di dO m → res = plainRegrid w inv x di dO m ∨
    res = .error .value ∧ ∃ cfg gi go e size, PipeOp.configure cfg ∈ begun ∧ fromDict w.P di = .ok gi ∧ fromDict w.P dO = .ok go ∧
      Index.find w.P w.order inv.index gi.d go.d (Index.methodAlias m) = .ok (some e) ∧ inv.memory e = some size ∧ Forbids cfg size

structure Inv (w : World) (sizeFn : Csr α → Nat) (inv : Inventory α) (s : Sys α) : Prop where
  reach : Reach w.key sizeFn s.conf
  /-- threads are in the calls they made -/
  inCall : ∀ t call, s.pending t = some call → call ∈ s.begun ∧ ∃ o, lookupOf w inv call = .ok o ∧
    (replay t s.conf.log = some (.called (.op o)) ∨ ∃ r, replay t s.conf.log = some (.effective (.op o) r))
  called : ∀ t o, .call t o ∈ s.conf.log → ∃ call o', call ∈ s.begun ∧ lookupOf w inv call = .ok o' ∧ o = .op o'
  idle : ∀ t, s.pending t = none → s.conf.th t = .idle
  good : HistorySound s.begun → HistoryUsable w s.begun → ∀ d ∈ s.done, d.2.1 ∈ s.begun ∧ Good w inv s.begun d.2.1 d.2.2

theorem Good.mono {w : World} {inv : Inventory α} {b b' : List (PipeOp α)} (h : ∀ c ∈ b, c ∈ b') {call : PipeOp α} {res : Except Err (Arr α × Dict)}
    (hg : Good w inv b call res) : Good w inv b' call res := by
  intro x di dO m hc
  rcases hg x di dO m hc with h1 | ⟨h1, cfg, gi, go, e, size, h2, h3⟩
  · exact .inl h1
  · exact .inr ⟨h1, cfg, gi, go, e, size, h _ h2, h3⟩

omit [Zero α] [Add α] [Mul α] in
theorem lookupOf_get {w : World} {inv : Inventory α} {call : PipeOp α} {src : MemCache.Source Request (Csr α) (List Nat)} {q : Request}
    (h : lookupOf w inv call = .ok (.get src q)) : src = source w inv ∧ ∃ x di dO, call = .regrid x di dO q.method ∧ fromDict w.P di = .ok q.gi ∧
      fromDict w.P dO = .ok q.go := by
  cases call with
  | regrid x di dO m =>
    unfold lookupOf at h
    cases hi : fromDict w.P di with
    | error e => simp only [hi] at h; cases h
    | ok gi =>
      cases ho : fromDict w.P dO with
      | error e => simp only [hi, ho] at h; cases h
      | ok go =>
        simp only [hi, ho] at h
        cases h
        exact ⟨rfl, x, di, dO, rfl, hi, ho⟩
  | configure cfg => cases h
  | clear => cases h

omit [Zero α] [Add α] [Mul α] in
theorem lookupOf_update {w : World} {inv : Inventory α} {call : PipeOp α} {cfg : MemCache.Cfg}
    (h : lookupOf w inv call = .ok (.update cfg)) : call = .configure cfg := by
  cases call with
  | regrid x di dO m =>
    unfold lookupOf at h
    cases hi : fromDict w.P di with
    | error e => simp only [hi] at h; cases h
    | ok gi =>
      cases ho : fromDict w.P dO with
      | error e => simp only [hi, ho] at h; cases h
      | ok go => simp only [hi, ho] at h; cases h
  | configure c => cases h; rfl
  | clear => cases h

/-- What is known of a regrid that takes effect after `post`. -/
def Came (w : World) (inv : Inventory α) (begun : List (PipeOp α)) (post : List (Event Request (Csr α) (List Nat))) (x : Arr α) (di dO : Dict) (m : List Char)
    (res : Except Err (Arr α × Dict)) : Prop :=
  res = plainRegrid w inv x di dO m ∨
    res = .error .value ∧ ∃ cfg gi go e size, MemCache.lastCfg (effects post) = some cfg ∧ PipeOp.configure cfg ∈ begun ∧ fromDict w.P di = .ok gi ∧
      fromDict w.P dO = .ok go ∧ Index.find w.P w.order inv.index gi.d go.d (Index.methodAlias m) = .ok (some e) ∧ inv.memory e = some size ∧ Forbids cfg size

/-- The operation of a call that is about to end. -/
theorem returning_op (w : World) (sizeFn : Csr α → Nat) (inv : Inventory α) (s : Sys α) (hI : Inv w sizeFn inv s)
    (t : Nat) (call : PipeOp α) (res : CRes Request (Csr α) (List Nat)) (hp : s.pending t = some call) (h : s.conf.th t = .returning res) :
    ∃ o, lookupOf w inv call = .ok o ∧ replay t s.conf.log = some (.effective (.op o) res) := by
  obtain ⟨hbeg, o, ho, hrep⟩ := hI.inCall t _ hp
  have hth := (inv_reach w.key sizeFn s.conf hI.reach).threads t
  rw [h] at hth
  obtain ⟨o', ho'⟩ := hth
  have hoo : o' = .op o := by
    rcases hrep with h1 | ⟨r', h1⟩ <;> rw [ho'] at h1 <;> cases h1
    rfl
  subst hoo
  exact ⟨o, ho, ho'⟩

/-- A regrid that ends has a good result. -/
theorem finish_came (w : World) (hw : w.Sane) (sizeFn : Csr α → Nat) (inv : Inventory α) (hc : Index.Clean w.P inv.index) (s : Sys α)
    (hI : Inv w sizeFn inv s) (hv : HistorySound s.begun) (hu : HistoryUsable w s.begun)
    (t : Nat) (x : Arr α) (di dO : Dict) (m : List Char) (res : CRes Request (Csr α) (List Nat)) (hbeg : PipeOp.regrid x di dO m ∈ s.begun)
    (o : MemCache.Op Request (Csr α) (List Nat)) (ho : lookupOf w inv (.regrid x di dO m) = .ok o)
    (pre post : List (Event Request (Csr α) (List Nat))) (hlog : s.conf.log = pre ++ .lin t (.op o) res :: post)
    (r : Except Err (Arr α × Dict)) (hr : answer (.regrid x di dO m) res = some r) : Came w inv s.begun post x di dO m r := by
  have hinv := inv_reach w.key sizeFn s.conf hI.reach
  have hleg := hinv.legal t _ res pre post hlog
  have hmpost : Matching post := by
    refine ⟨fun t' o' r' pre' post' e => ?_, fun t' r' pre' post' e => ?_⟩
    · exact hinv.matching.1 t' o' r' (pre ++ .lin t (.op o) res :: pre') post' (by rw [hlog, e]; simp)
    · exact hinv.matching.2 t' r' (pre ++ .lin t (.op o) res :: pre') post' (by rw [hlog, e]; simp)
  -- what took effect before
  have hops : ∀ o1 ∈ effects post, ∃ c1 ∈ s.begun, lookupOf w inv c1 = .ok o1 := by
    intro o1 h1
    obtain ⟨t1, h2⟩ := effects_called hmpost h1
    obtain ⟨c1, o1', h3, h4, h5⟩ := hI.called t1 (.op o1) (by rw [hlog]; simp [h2])
    cases h5
    exact ⟨c1, h3, h4⟩
  obtain ⟨ui, uo⟩ := hu x di dO m hbeg
  unfold lookupOf at ho
  cases hi : fromDict w.P di with
  | error e => simp only [hi] at ho; cases ho
  | ok gi =>
    cases hO : fromDict w.P dO with
    | error e => simp only [hi, hO] at ho; cases ho
    | ok go =>
      simp only [hi, hO] at ho
      cases ho
      have hsrc : MemCache.OnlySource (source w inv) (effects post) := by
        intro src q hq
        obtain ⟨c1, _, h2⟩ := hops _ hq
        exact (lookupOf_get h2).1
      have hvalid : MemCache.OpsValid (effects post) := by
        intro cfg hq
        obtain ⟨c1, h1, h2⟩ := hops _ hq
        rw [lookupOf_update h2] at h1
        exact hv cfg h1
      have key := get_or_refused w.key sizeFn (source w inv) (effects post) hsrc hvalid ⟨gi, go, m⟩ (by
        intro q hq hk
        obtain ⟨c1, h1, h2⟩ := hops _ hq
        obtain ⟨-, x1, di1, dO1, rfl, h3, h4⟩ := lookupOf_get h2
        obtain ⟨u1, u2⟩ := hu _ _ _ _ h1
        rw [key_inj w hw q ⟨gi, go, m⟩ ⟨di1, dO1, u1, u2, h3, h4⟩ ⟨di, dO, ui, uo, hi, hO⟩ hk])
      have hstate := seqState_effects w.key sizeFn post
      simp only at key
      rw [← hstate] at key
      simp only [seqStep, MemCache.step] at hleg
      have h75 := MemCache.C75_follows_last_configuration (S := List Nat) w.key sizeFn (effects post) hvalid
      have hlen := run_lenient (S := List Nat) w.key sizeFn (effects post)
      simp only at h75
      rw [← hstate] at h75 hlen
      generalize (seqState w.key sizeFn post : MemCache.Cache (List Char) (Csr α) (List Nat)) = s1 at *
      generalize MemCache.get w.key sizeFn (source w inv) ⟨gi, go, m⟩ s1 = y at *
      obtain ⟨⟨res1, c1⟩, t1⟩ := y
      simp only at key hleg
      subst hleg
      rcases key with key | ⟨key, hl, hst, e, lim, he, hmax, hlt⟩
      · left
        subst key
        rw [create_eq w inv hc] at hr
        simp only [plainRegrid, findPlain, hi, hO]
        simp only at hr
        cases hlp : lookupPlain w inv gi go m with
        | error e => simp only [hlp, answer, ofCache, code_ofCode] at hr; exact (Option.some.inj hr).symm
        | ok o =>
          cases o with
          | none => simp only [hlp, answer] at hr; exact (Option.some.inj hr).symm
          | some q => obtain ⟨z, sh⟩ := q; simp only [hlp, answer] at hr; exact (Option.some.inj hr).symm
      · right
        subst key
        have hr' : r = .error .value := (Option.some.inj hr).symm
        refine ⟨hr', ?_⟩
        cases hlast : MemCache.lastCfg (effects post) with
        | none =>
          exfalso
          have hno : ∀ cfg, MemCache.Op.update cfg ∉ effects post := by
            intro cfg hm
            obtain ⟨a, b, hab⟩ := List.append_of_mem hm
            have : ∀ l : List (MemCache.Op Request (Csr α) (List Nat)), MemCache.lastCfg (l ++ .update cfg :: b) ≠ none := by
              intro l
              induction l with
              | nil =>
                simp only [List.nil_append, MemCache.lastCfg]
                split <;> simp
              | cons a l ih =>
                cases a with
                | get src q => exact ih
                | clear => exact ih
                | update c =>
                  simp only [List.cons_append, MemCache.lastCfg]
                  split <;> simp
            rw [hab] at hlast
            exact this a hlast
          rw [hlen (fun cfg hm => absurd hm (hno cfg))] at hst
          cases hst
        | some cfg =>
          have hmem : MemCache.Op.update cfg ∈ effects post := by
            have : ∀ l : List (MemCache.Op Request (Csr α) (List Nat)), MemCache.lastCfg l = some cfg → MemCache.Op.update cfg ∈ l := by
              intro l
              induction l with
              | nil => intro h; cases h
              | cons a l ih =>
                intro h
                cases a with
                | get src q => exact List.mem_cons_of_mem _ (ih h)
                | clear => exact List.mem_cons_of_mem _ (ih h)
                | update c =>
                  simp only [MemCache.lastCfg] at h
                  split at h
                  · cases h; simp
                  · rename_i hc'
                    cases h
                    exact List.mem_cons_of_mem _ (ih hc')
            exact this _ hlast
          obtain ⟨c0, hb0, hc0⟩ := hops _ hmem
          rw [lookupOf_update hc0] at hb0
          obtain ⟨h1, h2⟩ := h75 cfg hlast
          simp only [MemCache.info] at h1 h2
          obtain ⟨h2, h3⟩ := h2 hl
          simp only [source] at he
          cases hfd : Index.find w.P w.order inv.index gi.d go.d (Index.methodAlias m) with
          | error x => rw [hfd] at he; cases he
          | ok o =>
            cases o with
            | none => rw [hfd] at he; cases he
            | some e0 =>
              rw [hfd] at he
              cases he
              obtain ⟨v, p, v1, v2, v3⟩ := hv cfg hb0
              have hp' : p = .lru ∨ p = .largest := by
                rw [v2] at h1; cases h1; exact hl
              obtain ⟨lim', rfl, hpos⟩ := v3 hp'
              rw [hmax, v1] at h2
              cases h2
              simp only [MemCache.estimate] at hlt
              cases hmem0 : inv.memory e0 with
              | none => rw [hmem0] at hlt; simp at hlt; omega
              | some size =>
                rw [hmem0] at hlt
                exact ⟨cfg, gi, go, e0, size, by first | rfl | exact hlast, hb0, by first | rfl | exact hi, by first | rfl | exact hO, hfd, hmem0, by rw [← h3]; exact hst, by rw [v2]; rcases hp' with rfl | rfl <;> simp, lim, v1, hlt⟩

theorem inv_start (w : World) (sizeFn : Csr α → Nat) (inv : Inventory α) : Inv w sizeFn inv start where
  reach := .start
  inCall := by intro t call h; cases h
  called := by intro t o h; cases h
  idle := fun t _ => rfl
  good := by intro _ _ d h; cases h

omit [Zero α] [Add α] [Mul α] in
theorem setPending_same (f : Nat → Option (PipeOp α)) (t : Nat) (x) : setPending f t x t = x := by simp [setPending]
omit [Zero α] [Add α] [Mul α] in
theorem setPending_other (f : Nat → Option (PipeOp α)) (t u : Nat) (x) (h : u ≠ t) : setPending f t x u = f u := by simp [setPending, h]

theorem refused_good {w : World} {inv : Inventory α} {call : PipeOp α} {e : Err} (h : lookupOf w inv call = .error e) (begun : List (PipeOp α)) :
    Good w inv begun call (.error e) := by
  rintro x di dO m rfl
  left
  unfold lookupOf at h
  simp only [plainRegrid, findPlain]
  cases hi : fromDict w.P di with
  | error e' => simp only [hi] at h ⊢; cases h; rfl
  | ok gi =>
    cases ho : fromDict w.P dO with
    | error e' => simp only [hi, ho] at h ⊢; cases h; rfl
    | ok go => simp only [hi, ho] at h; cases h

theorem inv_step (w : World) (hw : w.Sane) (sizeFn : Csr α → Nat) (inv : Inventory α) (hc : Index.Clean w.P inv.index) (s s' : Sys α)
    (hI : Inv w sizeFn inv s) (h : TStep w sizeFn inv s s') : Inv w sizeFn inv s' := by
  cases h with
  | refused t call e hi h =>
    refine ⟨hI.reach, ?_, ?_, hI.idle, ?_⟩
    · intro u c hp
      obtain ⟨h1, h2⟩ := hI.inCall u c hp
      exact ⟨List.mem_cons_of_mem _ h1, h2⟩
    · intro u o hm
      obtain ⟨c, o', h1, h2⟩ := hI.called u o hm
      exact ⟨c, o', List.mem_cons_of_mem _ h1, h2⟩
    · intro hv hu d hd
      rcases List.mem_cons.1 hd with rfl | hd
      · exact ⟨by simp, refused_good h _⟩
      · obtain ⟨h1, h2⟩ := hI.good (fun cfg hm => hv cfg (List.mem_cons_of_mem _ hm)) (fun x di dO m hm => hu x di dO m (List.mem_cons_of_mem _ hm)) d hd
        exact ⟨List.mem_cons_of_mem _ h1, h2.mono (fun c hc => List.mem_cons_of_mem _ hc)⟩
  | call t call o hi h =>
    have hreach := hI.reach.step (MemCache.Concurrent.Step.call (key := w.key) (sizeFn := sizeFn) s.conf t (.op o) hi)
    refine ⟨hreach, ?_, ?_, ?_, ?_⟩
    · intro u c hp
      by_cases hut : u = t
      · subst hut
        simp only [setPending_same] at hp
        cases hp
        refine ⟨by simp, o, h, .inl ?_⟩
        have := (inv_reach _ _ _ hreach).threads u
        simp only [setTh_same, ThreadOk] at this
        exact this
      · simp only [setPending_other _ _ _ _ hut] at hp
        obtain ⟨h1, o', h2, h3⟩ := hI.inCall u c hp
        refine ⟨List.mem_cons_of_mem _ h1, o', h2, ?_⟩
        rw [show replay u (.call t (.op o) :: s.conf.log) = replay u s.conf.log from replay_other _ _ u hut]
        exact h3
    · intro u o' hm
      rcases List.mem_cons.1 hm with hm | hm
      · cases hm
        exact ⟨call, o, by simp, h, rfl⟩
      · obtain ⟨c, o', h1, h2⟩ := hI.called u o' hm
        exact ⟨c, o', List.mem_cons_of_mem _ h1, h2⟩
    · intro u hp
      by_cases hut : u = t
      · subst hut; simp only [setPending_same] at hp; cases hp
      · simp only [setPending_other _ _ _ _ hut] at hp
        simp only [setTh_other _ _ _ _ hut]
        exact hI.idle u hp
    · intro hv hu d hd
      obtain ⟨h1, h2⟩ := hI.good (fun cfg hm => hv cfg (List.mem_cons_of_mem _ hm)) (fun x di dO m hm => hu x di dO m (List.mem_cons_of_mem _ hm)) d hd
      exact ⟨List.mem_cons_of_mem _ h1, h2.mono (fun c hc => List.mem_cons_of_mem _ hc)⟩
  | inside c' h =>
    obtain ⟨hs, hlog⟩ := h
    have hreach := hI.reach.step hs
    refine ⟨hreach, ?_, ?_, ?_, hI.good⟩
    · intro u c hp
      obtain ⟨h1, o, h2, h3⟩ := hI.inCall u c hp
      refine ⟨h1, o, h2, ?_⟩
      rcases hlog with hlog | ⟨t, o', r, hlog⟩
      · rw [hlog]; exact h3
      · by_cases hut : u = t
        · subst hut
          have hsome := (C13_linearizable w.key sizeFn c' hreach).2.2.1 u
          rcases h3 with h3 | ⟨r', h3⟩
          · right
            refine ⟨r, ?_⟩
            rw [hlog]
            simp only [replay, if_true, h3]
          · exfalso
            rw [hlog] at hsome
            simp only [replay, if_true, h3] at hsome
            cases hsome
        · rw [hlog, replay_other (.lin t o' r) _ u hut]
          exact h3
    · intro u o hm
      rcases hlog with hlog | ⟨t, o', r, hlog⟩
      · rw [hlog] at hm; exact hI.called u o hm
      · rw [hlog] at hm
        rcases List.mem_cons.1 hm with hm | hm
        · cases hm
        · exact hI.called u o hm
    · intro u hp
      have h0 := hI.idle u hp
      have len : ∀ (e : Event Request (Csr α) (List Nat)), c'.log = e :: s.conf.log → (∃ t o r, e = .lin t o r) := by
        intro e he
        rcases hlog with hlog | ⟨t, o', r, hlog⟩
        · rw [hlog] at he; exact absurd (congrArg List.length he) (by simp)
        · rw [hlog] at he; cases he; exact ⟨t, o', r, rfl⟩
      cases hs with
      | call t o h => obtain ⟨_, _, _, e⟩ := len _ rfl; cases e
      | ret t r h => obtain ⟨_, _, _, e⟩ := len _ rfl; cases e
      | unlockedOff t src q h =>
        have : u ≠ t := by rintro rfl; rw [h0] at h; cases h
        simp only [setTh_other _ _ _ _ this]; exact h0
      | unlockedOn t src q h =>
        have : u ≠ t := by rintro rfl; rw [h0] at h; cases h
        simp only [setTh_other _ _ _ _ this]; exact h0
      | toLock t o h =>
        have : u ≠ t := by rintro rfl; rw [h0] at h; cases h
        simp only [setTh_other _ _ _ _ this]; exact h0
      | acquire t o h =>
        have : u ≠ t := by rintro rfl; rw [h0] at h; cases h
        simp only [setTh_other _ _ _ _ this]; exact h0
      | first t o h =>
        have : u ≠ t := by rintro rfl; rw [h0] at h; cases h
        simp only [setTh_other _ _ _ _ this]; exact h0
      | second t o r h =>
        have : u ≠ t := by rintro rfl; rw [h0] at h; cases h
        simp only [setTh_other _ _ _ _ this]; exact h0
  | finish t call res hp h =>
    have hreach := hI.reach.step (MemCache.Concurrent.Step.ret (key := w.key) (sizeFn := sizeFn) s.conf t res h)
    refine ⟨hreach, ?_, ?_, ?_, ?_⟩
    · intro u c hp'
      by_cases hut : u = t
      · subst hut; simp only [setPending_same] at hp'; cases hp'
      · simp only [setPending_other _ _ _ _ hut] at hp'
        obtain ⟨h1, o', h2, h3⟩ := hI.inCall u c hp'
        refine ⟨h1, o', h2, ?_⟩
        rw [show replay u (.ret t res :: s.conf.log) = replay u s.conf.log from replay_other _ _ u hut]
        exact h3
    · intro u o hm
      rcases List.mem_cons.1 hm with hm | hm
      · cases hm
      · exact hI.called u o hm
    · intro u hp'
      by_cases hut : u = t
      · subst hut; simp only [setTh_same]
      · simp only [setPending_other _ _ _ _ hut] at hp'
        simp only [setTh_other _ _ _ _ hut]
        exact hI.idle u hp'
    · intro hv hu d hd
      rcases List.mem_append.1 hd with hd | hd
      · obtain ⟨r, hr, rfl⟩ := List.mem_map.1 hd
        refine ⟨(hI.inCall t call hp).1, ?_⟩
        obtain ⟨o, ho, hrep⟩ := returning_op w sizeFn inv s hI t call res hp h
        obtain ⟨pre, post, hlog⟩ := replay_effective (inv_reach w.key sizeFn s.conf hI.reach).matching hrep
        rintro x di dO m rfl
        rcases finish_came w hw sizeFn inv hc s hI hv hu t x di dO m res (hI.inCall t _ hp).1 o ho pre post hlog r (Option.mem_toList.1 hr) with
          h1 | ⟨h1, cfg, gi, go, e, size, -, h2⟩
        · exact .inl h1
        · exact .inr ⟨h1, cfg, gi, go, e, size, h2⟩
      · exact hI.good hv hu d hd

theorem inv_steps (w : World) (hw : w.Sane) (sizeFn : Csr α → Nat) (inv : Inventory α) (hc : Index.Clean w.P inv.index) (s : Sys α)
    (h : Steps w sizeFn inv start s) : Inv w sizeFn inv s := by
  induction h with
  | none => exact inv_start w sizeFn inv
  | step _ hs ih => exact inv_step w hw sizeFn inv hc _ _ ih hs

/-! ### Since an earlier state -/

section
variable {Q W S : Type}

theorem replay_since (t : Nat) (nl base : List (Event Q W S)) (h : replay t base = some .idle) : replay t (nl ++ base) = replay t nl := by
  induction nl with
  | nil => exact h
  | cons ev nl ih => cases ev <;> simp only [List.cons_append, replay, ih]

theorem effective_since {t : Nat} {nl base : List (Event Q W S)} {o : COp Q W S} {r : CRes Q W S} (hm : Matching (nl ++ base))
    (hb : replay t base = some .idle) (h : replay t (nl ++ base) = some (.effective o r)) : ∃ pre post, nl = pre ++ .lin t o r :: post := by
  induction nl with
  | nil => rw [List.nil_append, hb] at h; cases h
  | cons ev nl ih =>
    have hm' : Matching (nl ++ base) := ⟨fun t o r pre post e => hm.1 t o r (ev :: pre) post (by rw [List.cons_append, e]; rfl),
      fun t r pre post e => hm.2 t r (ev :: pre) post (by rw [List.cons_append, e]; rfl)⟩
    have up : replay t (nl ++ base) = some (.effective o r) → ∃ pre post, ev :: nl = pre ++ .lin t o r :: post := by
      intro h
      obtain ⟨pre, post, e⟩ := ih hm' h
      exact ⟨ev :: pre, post, by rw [e]; rfl⟩
    rw [List.cons_append] at h hm
    cases ev with
    | call u o' =>
      by_cases hu : u = t
      · subst hu
        simp only [replay, if_true] at h
        split at h <;> cases h
      · simp only [replay, if_neg hu] at h
        exact up h
    | lin u o' r' =>
      by_cases hu : u = t
      · subst hu
        have h0 := hm.1 u o' r' [] (nl ++ base) rfl
        simp only [replay, if_true, h0] at h
        cases h
        exact ⟨[], nl, rfl⟩
      · simp only [replay, if_neg hu] at h
        exact up h
    | ret u r' =>
      by_cases hu : u = t
      · subst hu
        simp only [replay, if_true] at h
        split at h <;> cases h
      · simp only [replay, if_neg hu] at h
        exact up h

theorem effects_append (a b : List (Event Q W S)) : effects (a ++ b) = effects b ++ effects a := by
  induction a with
  | nil => simp [effects]
  | cons ev a ih =>
    cases ev with
    | call => exact ih
    | ret => exact ih
    | lin t o r =>
      cases o with
      | info => exact ih
      | op o => simp only [List.cons_append, effects, ih, List.append_assoc]

theorem mem_effects {t : Nat} {o : MemCache.Op Q W S} {r : CRes Q W S} {log : List (Event Q W S)} (h : .lin t (.op o) r ∈ log) : o ∈ effects log := by
  obtain ⟨a, b, rfl⟩ := List.append_of_mem h
  rw [effects_append]
  simp [effects]

theorem effects_mem {o : MemCache.Op Q W S} {log : List (Event Q W S)} (h : o ∈ effects log) : ∃ t r, .lin t (.op o) r ∈ log := by
  induction log with
  | nil => cases h
  | cons ev log ih =>
    have up : (∃ t r, .lin t (.op o) r ∈ log) → ∃ t r, .lin t (.op o) r ∈ ev :: log := fun ⟨t, r, h⟩ => ⟨t, r, by simp [h]⟩
    cases ev with
    | call => exact up (ih h)
    | ret => exact up (ih h)
    | lin u o' r =>
      cases o' with
      | info => exact up (ih h)
      | op o' =>
        simp only [effects, List.mem_append, List.mem_singleton] at h
        rcases h with h | rfl
        · exact up (ih h)
        · exact ⟨u, r, by simp⟩

theorem lastCfg_mem {l : List (MemCache.Op Q W S)} {cfg : MemCache.Cfg} (h : MemCache.lastCfg l = some cfg) : MemCache.Op.update cfg ∈ l := by
  induction l with
  | nil => cases h
  | cons a l ih =>
    cases a with
    | get src q => exact List.mem_cons_of_mem _ (ih h)
    | clear => exact List.mem_cons_of_mem _ (ih h)
    | update c =>
      simp only [MemCache.lastCfg] at h
      split at h
      · cases h; simp
      · rename_i hc'
        cases h
        exact List.mem_cons_of_mem _ (ih hc')

theorem lastCfg_some {l : List (MemCache.Op Q W S)} {cfg : MemCache.Cfg} (h : MemCache.Op.update cfg ∈ l) : ∃ c, MemCache.lastCfg l = some c := by
  cases hl : MemCache.lastCfg l with
  | some c => exact ⟨c, rfl⟩
  | none =>
    exfalso
    obtain ⟨a, b, rfl⟩ := List.append_of_mem h
    have : ∀ l : List (MemCache.Op Q W S), MemCache.lastCfg (l ++ .update cfg :: b) ≠ none := by
      intro l
      induction l with
      | nil =>
        simp only [List.nil_append, MemCache.lastCfg]
        split <;> simp
      | cons a l ih =>
        cases a with
        | get src q => exact ih
        | clear => exact ih
        | update c =>
          simp only [List.cons_append, MemCache.lastCfg]
          split <;> simp
    exact this a hl

/-- The last configuration is among the later ones if there are any. -/
theorem lastCfg_later (a : List (MemCache.Op Q W S)) {b : List (MemCache.Op Q W S)} {cfg : MemCache.Cfg} (h : MemCache.Op.update cfg ∈ b) :
    MemCache.lastCfg (a ++ b) = MemCache.lastCfg b := by
  obtain ⟨c, hc⟩ := lastCfg_some h
  induction a with
  | nil => rfl
  | cons x a ih =>
    cases x with
    | get src q => exact ih
    | clear => exact ih
    | update c' =>
      simp only [List.cons_append, MemCache.lastCfg]
      rw [ih, hc]

end

/-- What happened to configurations since a state in which nobody was in one. -/
structure Since (s0 s : Sys α) (nb : List (PipeOp α)) (nl : List (Event Request (Csr α) (List Nat))) (ne : List (Nat × PipeOp α)) : Prop where
  begun : s.begun = nb ++ s0.begun
  log : s.conf.log = nl ++ s0.conf.log
  ended : s.ended = ne ++ s0.ended
  new : ∀ t cfg, s.pending t = some (.configure cfg) → PipeOp.configure cfg ∈ nb ∧ ((∃ r, .lin t (.op (.update cfg)) r ∈ nl) ∨ ∃ o, replay t s.conf.log = some (.called o))
  effect : ∀ t cfg r, .lin t (.op (.update cfg)) r ∈ nl → PipeOp.configure cfg ∈ nb
  over : ∀ t cfg, (t, .configure cfg) ∈ ne → ∃ u r, .lin u (.op (.update cfg)) r ∈ nl

theorem steps_trans {w : World} {sizeFn : Csr α → Nat} {inv : Inventory α} {a b c : Sys α} (h1 : Steps w sizeFn inv a b) (h2 : Steps w sizeFn inv b c) :
    Steps w sizeFn inv a c := by
  induction h2 with
  | none => exact h1
  | step _ hs ih => exact ih.step hs

theorem since_step (w : World) (sizeFn : Csr α → Nat) (inv : Inventory α) (s0 s s' : Sys α) (hI : Inv w sizeFn inv s) (hI' : Inv w sizeFn inv s')
    (h : TStep w sizeFn inv s s') {nb nl ne} (hS : Since s0 s nb nl ne) : ∃ nb' nl' ne', Since s0 s' (nb' ++ nb) (nl' ++ nl) (ne' ++ ne) := by
  cases h with
  | refused t call e hi h =>
    refine ⟨[call], [], [(t, call)], ?_, hS.log, ?_, ?_, ?_, ?_⟩
    · simp [hS.begun]
    · simp [hS.ended]
    · intro u cfg hp
      obtain ⟨h1, h2⟩ := hS.new u cfg hp
      exact ⟨by simp [h1], by simpa using h2⟩
    · intro u cfg r hm
      have := hS.effect u cfg r (by simpa using hm)
      simp [this]
    · intro u cfg hm
      rcases List.mem_cons.1 (by simpa using hm : (u, PipeOp.configure cfg) ∈ (t, call) :: ne) with hm | hm
      · cases hm; cases h
      · simpa using hS.over u cfg hm
  | call t call o hi h =>
    refine ⟨[call], [.call t (.op o)], [], ?_, ?_, hS.ended, ?_, ?_, ?_⟩
    · simp [hS.begun]
    · simp [hS.log]
    · intro u cfg hp
      by_cases hut : u = t
      · subst hut
        simp only [setPending_same] at hp
        cases hp
        refine ⟨by simp, .inr ⟨.op o, ?_⟩⟩
        have := (inv_reach _ _ _ hI'.reach).threads u
        simp only [setTh_same, ThreadOk] at this
        exact this
      · simp only [setPending_other _ _ _ _ hut] at hp
        obtain ⟨h1, h2⟩ := hS.new u cfg hp
        refine ⟨by simp [h1], ?_⟩
        rcases h2 with ⟨r, h2⟩ | ⟨o', h2⟩
        · exact .inl ⟨r, by simp [h2]⟩
        · exact .inr ⟨o', by rw [show replay u (.call t (.op o) :: s.conf.log) = replay u s.conf.log from replay_other _ _ u hut]; exact h2⟩
    · intro u cfg r hm
      have := hS.effect u cfg r (by simpa using hm)
      simp [this]
    · intro u cfg hm
      obtain ⟨v, r, h1⟩ := hS.over u cfg hm
      exact ⟨v, r, by simp [h1]⟩
  | inside c' h =>
    obtain ⟨hs, hlog⟩ := h
    rcases hlog with hlog | ⟨t, o, r, hlog⟩
    · refine ⟨[], [], [], hS.begun, hlog.trans hS.log, hS.ended, ?_, hS.effect, hS.over⟩
      intro u cfg hp
      show _ ∧ (_ ∨ ∃ o, replay u c'.log = _)
      rw [hlog]
      exact hS.new u cfg hp
    · -- the operation is the one of the call
      have hmatch : replay t s.conf.log = some (.called o) :=
        (inv_reach _ _ _ hI'.reach).matching.1 t o r [] s.conf.log hlog
      refine ⟨[], [.lin t o r], [], hS.begun, ?_, hS.ended, ?_, ?_, ?_⟩
      · show c'.log = _
        rw [hlog, hS.log]; rfl
      · intro u cfg hp
        obtain ⟨h1, h2⟩ := hS.new u cfg hp
        refine ⟨h1, ?_⟩
        rcases h2 with ⟨r', h2⟩ | ⟨o', h2⟩
        · exact .inl ⟨r', by simp [h2]⟩
        · by_cases hut : u = t
          · subst hut
            left
            obtain ⟨-, o1, h3, h4⟩ := hI.inCall u _ hp
            cases h3
            rcases h4 with h4 | ⟨r1, h4⟩
            · rw [hmatch] at h4
              cases h4
              exact ⟨r, by simp⟩
            · rw [hmatch] at h4; cases h4
          · right
            refine ⟨o', ?_⟩
            show replay u c'.log = _
            rw [hlog, replay_other (.lin t o r) _ u hut]
            exact h2
      · intro u cfg r' hm
        rcases List.mem_cons.1 (by simpa using hm : Event.lin u (.op (.update cfg)) r' ∈ .lin t o r :: nl) with hm | hm
        · cases hm
          cases hp : s.pending t with
          | none =>
            have := (inv_reach _ _ _ hI.reach).threads t
            rw [hI.idle t hp, ThreadOk, hmatch] at this
            cases this
          | some call =>
            obtain ⟨-, o1, h3, h4⟩ := hI.inCall t _ hp
            rcases h4 with h4 | ⟨r1, h4⟩ <;> rw [hmatch] at h4 <;> cases h4
            rw [lookupOf_update h3] at hp
            exact (hS.new t cfg hp).1
        · exact hS.effect u cfg r' hm
      · intro u cfg hm
        obtain ⟨v, r', h1⟩ := hS.over u cfg hm
        exact ⟨v, r', by simp [h1]⟩
  | finish t call res hp h =>
    refine ⟨[], [.ret t res], [(t, call)], hS.begun, ?_, ?_, ?_, ?_, ?_⟩
    · simp [hS.log]
    · simp [hS.ended]
    · intro u cfg hp'
      by_cases hut : u = t
      · subst hut; simp only [setPending_same] at hp'; cases hp'
      · simp only [setPending_other _ _ _ _ hut] at hp'
        obtain ⟨h1, h2⟩ := hS.new u cfg hp'
        refine ⟨h1, ?_⟩
        rcases h2 with ⟨r, h2⟩ | ⟨o', h2⟩
        · exact .inl ⟨r, by simp [h2]⟩
        · exact .inr ⟨o', by rw [show replay u (.ret t res :: s.conf.log) = replay u s.conf.log from replay_other _ _ u hut]; exact h2⟩
    · intro u cfg r hm
      exact hS.effect u cfg r (by simpa using hm)
    · intro u cfg hm
      rcases List.mem_cons.1 (by simpa using hm : (u, PipeOp.configure cfg) ∈ (t, call) :: ne) with hm | hm
      · cases hm
        obtain ⟨o, ho, hrep⟩ := returning_op w sizeFn inv s hI t _ res hp h
        rcases (hS.new t cfg hp).2 with ⟨r, h2⟩ | ⟨o', h2⟩
        · exact ⟨t, r, by simp [h2]⟩
        · rw [hrep] at h2; cases h2
      · obtain ⟨v, r', h1⟩ := hS.over u cfg hm
        exact ⟨v, r', by simp [h1]⟩

theorem since_start {w : World} {sizeFn : Csr α → Nat} {inv : Inventory α} {s0 : Sys α} (hI : Inv w sizeFn inv s0) (hq : ∀ t cfg, s0.pending t ≠ some (.configure cfg)) :
    Since s0 s0 [] [] [] where
  begun := rfl
  log := rfl
  ended := rfl
  new := fun t cfg h => absurd h (hq t cfg)
  effect := by intro t cfg r h; cases h
  over := by intro t cfg h; cases h

theorem since_steps (w : World) (hw : w.Sane) (sizeFn : Csr α → Nat) (inv : Inventory α) (hc : Index.Clean w.P inv.index) {s0 s s' : Sys α}
    (h0 : Steps w sizeFn inv start s) (h : Steps w sizeFn inv s s') {nb nl ne} (hS : Since s0 s nb nl ne) :
    ∃ nb' nl' ne', Since s0 s' (nb' ++ nb) (nl' ++ nl) (ne' ++ ne) := by
  induction h with
  | none => exact ⟨[], [], [], hS⟩
  | step hh hs ih =>
    obtain ⟨nb', nl', ne', hS'⟩ := ih
    have hr := steps_trans h0 hh
    obtain ⟨a, b, c, h3⟩ := since_step w sizeFn inv s0 _ _ (inv_steps w hw sizeFn inv hc _ hr) (inv_steps w hw sizeFn inv hc _ (hr.step hs)) hs hS'
    refine ⟨a ++ nb', b ++ nl', c ++ ne', ?_⟩
    simpa using h3

theorem recent (w : World) (hw : w.Sane) (sizeFn : Csr α → Nat) (inv : Inventory α) (hc : Index.Clean w.P inv.index) {s0 s1 s : Sys α}
    (h1 : Steps w sizeFn inv start s1) {nb1 nl1 ne1} (hS1 : Since s0 s1 nb1 nl1 ne1) {u : Nat} {c0 : MemCache.Cfg} (hover : (u, .configure c0) ∈ ne1)
    (t : Nat) (ht : s1.pending t = none) (h : Steps w sizeFn inv s1 s) (hv : HistorySound s.begun) (hu : HistoryUsable w s.begun) :
    ∃ nb nl ne nd, Since s0 s nb (nl ++ nl1) ne ∧ s.done = nd ++ s1.done ∧ ∀ d ∈ nd, d.1 = t → Good w inv nb d.2.1 d.2.2 := by
  induction h with
  | none => exact ⟨nb1, [], ne1, [], hS1, rfl, by intro d hd; cases hd⟩
  | @step s s' hh hs ih =>
    have hr := steps_trans h1 hh
    have hI := inv_steps w hw sizeFn inv hc _ hr
    have hI' := inv_steps w hw sizeFn inv hc _ (hr.step hs)
    have hsub : ∀ c ∈ s.begun, c ∈ s'.begun := by
      cases hs with
      | refused => exact fun c hc => List.mem_cons_of_mem _ hc
      | call => exact fun c hc => List.mem_cons_of_mem _ hc
      | inside => exact fun c hc => hc
      | finish => exact fun c hc => hc
    have hv' : HistorySound s.begun := fun cfg hm => hv cfg (hsub _ hm)
    have hu' : HistoryUsable w s.begun := fun x di dO m hm => hu x di dO m (hsub _ hm)
    obtain ⟨nb, nl, ne, nd, hS, hd, hgood⟩ := ih hv' hu'
    obtain ⟨nb', nl', ne', hS'⟩ := since_step w sizeFn inv s0 s s' hI hI' hs hS
    rw [← List.append_assoc] at hS'
    have old : ∀ d ∈ nd, d.1 = t → Good w inv (nb' ++ nb) d.2.1 d.2.2 :=
      fun d hd e => (hgood d hd e).mono (fun c hc => List.mem_append_right _ hc)
    cases hs with
    | refused t' call e hi h =>
      refine ⟨_, _, _, (t', call, .error e) :: nd, hS', by rw [List.cons_append, ← hd], ?_⟩
      intro d hd e'
      rcases List.mem_cons.1 hd with rfl | hd
      · exact refused_good h _
      · exact old d hd e'
    | call t' call o hi h => exact ⟨_, _, _, nd, hS', hd, old⟩
    | inside c' h => exact ⟨_, _, _, nd, hS', hd, old⟩
    | finish t' call res hp h =>
      refine ⟨_, _, _, (answer call res).toList.map (fun r => (t', call, r)) ++ nd, hS', by rw [List.append_assoc, ← hd], ?_⟩
      intro d hd e'
      rcases List.mem_append.1 hd with hd | hd
      · obtain ⟨r, hr', rfl⟩ := List.mem_map.1 hd
        simp only at e'
        subst e'
        obtain ⟨o, ho, hrep⟩ := returning_op w sizeFn inv s hI t' call res hp h
        have hlog : s.conf.log = nl ++ s1.conf.log := by rw [hS.log, hS1.log, List.append_assoc]
        have hbase : replay t' s1.conf.log = some .idle := by
          have hI1 := inv_steps w hw sizeFn inv hc _ h1
          have := (inv_reach _ _ _ hI1.reach).threads t'
          rw [hI1.idle t' ht] at this
          exact this
        have hm := (inv_reach w.key sizeFn s.conf hI.reach).matching
        rw [hlog] at hm hrep
        obtain ⟨pre, post, hnl⟩ := effective_since hm hbase hrep
        rintro x di dO m rfl
        rcases finish_came w hw sizeFn inv hc s hI hv' hu' t' x di dO m res (hI.inCall t' _ hp).1 o ho pre (post ++ s1.conf.log) (by rw [hlog, hnl]; simp) r
          (Option.mem_toList.1 hr') with h1 | ⟨h1, cfg, gi, go, e, size, h2, -, h3⟩
        · exact .inl h1
        · refine .inr ⟨h1, cfg, gi, go, e, size, ?_, h3⟩
          obtain ⟨v, r0, hlin⟩ := hS1.over u c0 hover
          rw [hS1.log, ← List.append_assoc, effects_append, lastCfg_later _ (mem_effects (List.mem_append_right _ hlin))] at h2
          obtain ⟨v', r', hlin'⟩ := effects_mem (lastCfg_mem h2)
          refine List.mem_append_right _ (hS.effect v' cfg r' ?_)
          rw [hnl]
          rcases List.mem_append.1 hlin' with hx | hx
          · simp [hx]
          · simp [hx]
      · exact old d hd e'

/-! ### Progress -/

/-- Thread `t`'s regrid is over, and the threads other than it and `v` are where they were. -/
structure Over (w : World) (sizeFn : Csr α → Nat) (inv : Inventory α) (s s' : Sys α) (t : Nat) (call : PipeOp α) (v : Option Nat) : Prop where
  steps : Steps w sizeFn inv s s'
  idle : s'.pending t = none
  result : ∃ r, s'.done = (t, call, r) :: s.done
  begun : s'.begun = s.begun
  others : ∀ u, u ≠ t → s'.pending u = s.pending u ∧ (v ≠ some u → s'.conf.th u = s.conf.th u)

theorem over_step {w : World} {sizeFn : Csr α → Nat} {inv : Inventory α} {s s' : Sys α} {t : Nat} {call : PipeOp α} {v : Option Nat}
    (c' : Conf Request (List Char) (Csr α) (List Nat)) (h : Inside' w sizeFn s.conf c') (hth : ∀ u, u ≠ t → v ≠ some u → c'.th u = s.conf.th u)
    (ho : Over w sizeFn inv { s with conf := c' } s' t call v) : Over w sizeFn inv s s' t call v where
  steps := steps_trans (Steps.none.step (.inside s c' h)) ho.steps
  idle := ho.idle
  result := ho.result
  begun := ho.begun
  others := fun u hu => ⟨(ho.others u hu).1, fun hv => ((ho.others u hu).2 hv).trans (hth u hu hv)⟩

section
variable (w : World) (sizeFn : Csr α → Nat) (inv : Inventory α) (t : Nat) (x : Arr α) (di dO : Dict) (m : List Char) (v : Option Nat)

theorem over_returning (s : Sys α) (hI : Inv w sizeFn inv s) (hp : s.pending t = some (.regrid x di dO m)) (res) (h : s.conf.th t = .returning res) :
    ∃ s', Over w sizeFn inv s s' t (.regrid x di dO m) v := by
  obtain ⟨o, ho, hrep⟩ := returning_op w sizeFn inv s hI t _ res hp h
  have hinv := inv_reach w.key sizeFn s.conf hI.reach
  obtain ⟨pre, post, hlog⟩ := replay_effective hinv.matching hrep
  have hleg := hinv.legal t _ res pre post hlog
  have : ∃ r, answer (.regrid x di dO m) res = some r := by
    unfold lookupOf at ho
    cases hi : fromDict w.P di with
    | error e => simp only [hi] at ho; cases ho
    | ok gi =>
      cases hO : fromDict w.P dO with
      | error e => simp only [hi, hO] at ho; cases ho
      | ok go =>
        simp only [hi, hO] at ho
        cases ho
        simp only [seqStep, MemCache.step] at hleg
        subst hleg
        generalize (MemCache.get w.key sizeFn (source w inv) ⟨gi, go, m⟩ (seqState w.key sizeFn post : MemCache.Cache (List Char) (Csr α) (List Nat))).1 = y
        obtain ⟨a, b⟩ := y
        cases a with
        | ok p => exact ⟨_, rfl⟩
        | error e => exact ⟨_, rfl⟩
  obtain ⟨r, hr⟩ := this
  refine ⟨_, Steps.none.step (.finish s t _ res hp h), ?_, ⟨r, ?_⟩, rfl, ?_⟩
  · simp only [setPending_same]
  · simp [hr]
  · intro u hu
    exact ⟨by simp only [setPending_other _ _ _ _ hu], fun _ => by simp only [setTh_other _ _ _ _ hu]⟩

variable (hw : w.Sane) (hc : Index.Clean w.P inv.index)
include hw hc

theorem over_mid (s : Sys α) (hI : Inv w sizeFn inv s) (hp : s.pending t = some (.regrid x di dO m)) (o r) (h : s.conf.th t = .mid o r) :
    ∃ s', Over w sizeFn inv s s' t (.regrid x di dO m) v := by
  have hs : Inside' w sizeFn s.conf _ := ⟨.second s.conf t o r h, .inl rfl⟩
  obtain ⟨s', h'⟩ := over_returning w sizeFn inv t x di dO m v { s with conf := _ } (inv_step w hw sizeFn inv hc _ _ hI (.inside s _ hs)) hp _ (setTh_same _ _ _)
  exact ⟨s', over_step _ hs (fun u hu _ => by simp only [setTh_other _ _ _ _ hu]) h'⟩

theorem over_locked (s : Sys α) (hI : Inv w sizeFn inv s) (hp : s.pending t = some (.regrid x di dO m)) (o) (h : s.conf.th t = .locked o) :
    ∃ s', Over w sizeFn inv s s' t (.regrid x di dO m) v := by
  have hs : Inside' w sizeFn s.conf _ := ⟨.first s.conf t o h, .inr ⟨_, _, _, rfl⟩⟩
  obtain ⟨s', h'⟩ := over_mid w sizeFn inv t x di dO m v hw hc { s with conf := _ } (inv_step w hw sizeFn inv hc _ _ hI (.inside s _ hs)) hp _ _ (setTh_same _ _ _)
  exact ⟨s', over_step _ hs (fun u hu _ => by simp only [setTh_other _ _ _ _ hu]) h'⟩

theorem over_waiting (s : Sys α) (hI : Inv w sizeFn inv s) (hp : s.pending t = some (.regrid x di dO m)) (o) (h : s.conf.th t = .waiting o) (hl : s.conf.lock = none) :
    ∃ s', Over w sizeFn inv s s' t (.regrid x di dO m) v := by
  have hs : Inside' w sizeFn s.conf _ := ⟨.acquire s.conf t o h hl, .inl rfl⟩
  obtain ⟨s', h'⟩ := over_locked w sizeFn inv t x di dO m v hw hc { s with conf := _ } (inv_step w hw sizeFn inv hc _ _ hI (.inside s _ hs)) hp _ (setTh_same _ _ _)
  exact ⟨s', over_step _ hs (fun u hu _ => by simp only [setTh_other _ _ _ _ hu]) h'⟩

theorem over_called (s : Sys α) (hI : Inv w sizeFn inv s) (hp : s.pending t = some (.regrid x di dO m)) (o) (h : s.conf.th t = .called o) (hl : s.conf.lock = none) :
    ∃ s', Over w sizeFn inv s s' t (.regrid x di dO m) v := by
  by_cases hg : ∃ src q, o = .op (.get src q)
  · obtain ⟨src, q, rfl⟩ := hg
    cases hb : s.conf.cache.policy.hasCache with
    | false =>
      have hs : Inside' w sizeFn s.conf _ := ⟨.unlockedOff s.conf t src q h hb, .inr ⟨_, _, _, rfl⟩⟩
      obtain ⟨s', h'⟩ := over_returning w sizeFn inv t x di dO m v { s with conf := _ } (inv_step w hw sizeFn inv hc _ _ hI (.inside s _ hs)) hp _ (setTh_same _ _ _)
      exact ⟨s', over_step _ hs (fun u hu _ => by simp only [setTh_other _ _ _ _ hu]) h'⟩
    | true =>
      have hs : Inside' w sizeFn s.conf _ := ⟨.unlockedOn s.conf t src q h hb, .inl rfl⟩
      obtain ⟨s', h'⟩ := over_waiting w sizeFn inv t x di dO m v hw hc { s with conf := _ } (inv_step w hw sizeFn inv hc _ _ hI (.inside s _ hs)) hp _ (setTh_same _ _ _) hl
      exact ⟨s', over_step _ hs (fun u hu _ => by simp only [setTh_other _ _ _ _ hu]) h'⟩
  · have hs : Inside' w sizeFn s.conf _ := ⟨.toLock s.conf t o h (fun src q e => hg ⟨src, q, e⟩), .inl rfl⟩
    obtain ⟨s', h'⟩ := over_waiting w sizeFn inv t x di dO m v hw hc { s with conf := _ } (inv_step w hw sizeFn inv hc _ _ hI (.inside s _ hs)) hp _ (setTh_same _ _ _) hl
    exact ⟨s', over_step _ hs (fun u hu _ => by simp only [setTh_other _ _ _ _ hu]) h'⟩

/-- With the lock free, or held by the thread itself. -/
theorem over_free (s : Sys α) (hI : Inv w sizeFn inv s) (hp : s.pending t = some (.regrid x di dO m)) (hl : s.conf.lock = none ∨ s.conf.lock = some t) :
    ∃ s', Over w sizeFn inv s s' t (.regrid x di dO m) v := by
  have hinv := inv_reach w.key sizeFn s.conf hI.reach
  have hth := hinv.threads t
  obtain ⟨-, o, -, hrep⟩ := hI.inCall t _ hp
  have free : (∀ o, s.conf.th t ≠ .locked o) → (∀ o r, s.conf.th t ≠ .mid o r) → s.conf.lock = none := by
    intro h1 h2
    refine hl.resolve_right fun h => ?_
    rcases (hinv.holder t).1 h with ⟨o, h⟩ | ⟨o, r, h⟩
    · exact h1 o h
    · exact h2 o r h
  cases h : s.conf.th t with
  | idle =>
    rw [h, ThreadOk] at hth
    rcases hrep with h1 | ⟨r, h1⟩ <;> rw [hth] at h1 <;> cases h1
  | called o => exact over_called w sizeFn inv t x di dO m v hw hc s hI hp o h (free (by simp [h]) (by simp [h]))
  | waiting o => exact over_waiting w sizeFn inv t x di dO m v hw hc s hI hp o h (free (by simp [h]) (by simp [h]))
  | locked o => exact over_locked w sizeFn inv t x di dO m v hw hc s hI hp o h
  | mid o r => exact over_mid w sizeFn inv t x di dO m v hw hc s hI hp o r h
  | returning res => exact over_returning w sizeFn inv t x di dO m v s hI hp res h

theorem over_any (s : Sys α) (hI : Inv w sizeFn inv s) (hp : s.pending t = some (.regrid x di dO m)) :
    ∃ s', Over w sizeFn inv s s' t (.regrid x di dO m) s.conf.lock := by
  have hinv := inv_reach w.key sizeFn s.conf hI.reach
  cases hl : s.conf.lock with
  | none => exact over_free w sizeFn inv t x di dO m _ hw hc s hI hp (.inl hl)
  | some u =>
    by_cases hut : u = t
    · subst hut; exact over_free w sizeFn inv u x di dO m _ hw hc s hI hp (.inr hl)
    · have fin : ∀ s : Sys α, Inv w sizeFn inv s → s.pending t = some (.regrid x di dO m) → ∀ o r, s.conf.th u = .mid o r →
          ∃ s', Over w sizeFn inv s s' t (.regrid x di dO m) (some u) := by
        intro s hI hp o r h
        have hs : Inside' w sizeFn s.conf _ := ⟨.second s.conf u o r h, .inl rfl⟩
        obtain ⟨s', h'⟩ := over_free w sizeFn inv t x di dO m (some u) hw hc { s with conf := _ } (inv_step w hw sizeFn inv hc _ _ hI (.inside s _ hs)) hp (.inl rfl)
        exact ⟨s', over_step _ hs (fun u' _ hv => by simp only [setTh_other _ _ _ _ (fun e => hv (by rw [e]) : u' ≠ u)]) h'⟩
      rcases (hinv.holder u).1 hl with ⟨o, h⟩ | ⟨o, r, h⟩
      · have hs : Inside' w sizeFn s.conf _ := ⟨.first s.conf u o h, .inr ⟨_, _, _, rfl⟩⟩
        obtain ⟨s', h'⟩ := fin { s with conf := _ } (inv_step w hw sizeFn inv hc _ _ hI (.inside s _ hs)) hp _ _ (setTh_same _ _ _)
        exact ⟨s', over_step _ hs (fun u' _ hv => by simp only [setTh_other _ _ _ _ (fun e => hv (by rw [e]) : u' ≠ u)]) h'⟩
      · exact fin s hI hp o r h

end

/-! ## Specification -/

/-- The weights for the request are published with a size that the configuration forbids. -/
def ForbiddenBy (P : Py) (es : List (String × Raw)) (memory : String × Raw → Option Int) (cfg : MemCache.Cfg) (di dO : Dict) (n : List Char) : Prop :=
  ∃ r size, First (Index.Answers P di dO n) es (some r) ∧ memory r = some size ∧ Forbids cfg size

theorem good_outcome {w : World} {es : List (String × Raw)} {weights : String × Raw → Except Err (Csr (Fp double))} (hwf : ∀ r z, weights r = .ok z → z.WF)
    {memory : String × Raw → Option Int} {ix : List (String × Entry)} {x : Arr (Fp double)} {di dO : Dict} {m n : List Char}
    (hall : Applied w.P es weights x di dO n dO (plainRegrid w ⟨ix, fun e => memory e.shown, fun e => weights e.shown⟩ x di dO m) ∧
      ∃ gi go r, fromDict w.P di = .ok gi ∧ fromDict w.P dO = .ok go ∧ find w.P w.order ix gi.d go.d (methodAlias m) = .ok r ∧
        First (Index.Answers w.P di dO n) es (r.map Entry.shown)) {begun : List (PipeOp (Fp double))} {res : Except Err (Arr (Fp double) × Dict)}
    (hg : Good w ⟨ix, fun e => memory e.shown, fun e => weights e.shown⟩ begun (.regrid x di dO m) res) :
    OutcomeD w.P es weights x di dO n res ∨ res = .error .value ∧ ∃ cfg, PipeOp.configure cfg ∈ begun ∧ ForbiddenBy w.P es memory cfg di dO n := by
  obtain ⟨ha, gi, go, r, hi, hO, hfd, hfirst⟩ := hall
  rcases hg x di dO m rfl with h | ⟨h, cfg, gi', go', e, size, h1, h2, h3, h4, h5, h6⟩
  · left
    rw [h]
    exact outcomeD_of_applied hwf ha
  · right
    rw [hi] at h2; rw [hO] at h3
    cases h2; cases h3
    rw [show find w.P w.order ix gi.d go.d (methodAlias m) = .ok (some e) from h4] at hfd
    cases hfd
    exact ⟨h, cfg, h1, e.shown, size, hfirst, h5, h6⟩

/-! ## Theorems -/

/-- C143: whatever threads regrid, configure and clear in one process, and however their steps interleave, every regrid that has ended came to
what one thread alone would see (C135), or was refused because a configuration made by some thread forbids the published size. -/
theorem C143_outcome (w : World) (hw : w.Sane) (ho : Enumerates w.order) (sizeFn : Csr (Fp double) → Nat) (f : IndexFile) (es : List (String × Raw))
    (hv : OneVersion f.version) (hf : f.matrix = some es) (hn : (es.map Prod.fst).Nodup) (hu : ∀ e ∈ es, Index.Usable w.P e.2)
    (hs : ∀ e ∈ es, ∃ shape, GivenShape e.2 shape) (weights : String × Raw → Except Err (Csr (Fp double))) (hwf : ∀ r z, weights r = .ok z → z.WF)
    (memory : String × Raw → Option Int) :
    ∃ ix, load w.P f = .ok ix ∧ ∀ (s : Sys (Fp double)), Steps w sizeFn ⟨ix, fun e => memory e.shown, fun e => weights e.shown⟩ start s →
      HistoryUsable w s.begun → HistorySound s.begun →
      ∀ t (x : Arr (Fp double)) (di dO : Dict) (m n : List Char) res, (t, .regrid x di dO m, res) ∈ s.done →
      GridSpec.Plain w.P di → GridSpec.Plain w.P dO → Published m n →
      OutcomeD w.P es weights x di dO n res ∨ res = .error .value ∧ ∃ cfg, PipeOp.configure cfg ∈ s.begun ∧ ForbiddenBy w.P es memory cfg di dO n := by
  obtain ⟨ix, hl, hc, hall⟩ := plain_any w ho f es hv hf hn hu hs weights (fun e => memory e.shown)
  refine ⟨ix, hl, fun s hst hus hso t x di dO m n res hd pi pO hm => ?_⟩
  have hI := inv_steps w hw sizeFn ⟨ix, fun e => memory e.shown, fun e => weights e.shown⟩ hc s hst
  exact good_outcome hwf (hall x di dO m n pi pO hm dO rfl) (hI.good hso hus _ hd).2

/-- C143: earlier configurations stop counting. Let `s0` be a moment at which no thread is configuring, `s1` a later one by which a configuration
begun since has been completed; a regrid begun after `s1` can be refused by configurations begun after `s0` only. -/
theorem C143_now (w : World) (hw : w.Sane) (ho : Enumerates w.order) (sizeFn : Csr (Fp double) → Nat) (f : IndexFile) (es : List (String × Raw))
    (hv : OneVersion f.version) (hf : f.matrix = some es) (hn : (es.map Prod.fst).Nodup) (hu : ∀ e ∈ es, Index.Usable w.P e.2)
    (hs : ∀ e ∈ es, ∃ shape, GivenShape e.2 shape) (weights : String × Raw → Except Err (Csr (Fp double))) (hwf : ∀ r z, weights r = .ok z → z.WF)
    (memory : String × Raw → Option Int) :
    ∃ ix, load w.P f = .ok ix ∧ ∀ (s0 s1 s : Sys (Fp double)), Steps w sizeFn ⟨ix, fun e => memory e.shown, fun e => weights e.shown⟩ start s0 →
      Steps w sizeFn ⟨ix, fun e => memory e.shown, fun e => weights e.shown⟩ s0 s1 → Steps w sizeFn ⟨ix, fun e => memory e.shown, fun e => weights e.shown⟩ s1 s →
      HistoryUsable w s.begun → HistorySound s.begun →
      (∀ t cfg, s0.pending t ≠ some (.configure cfg)) → ∀ ne u c0, s1.ended = ne ++ s0.ended → (u, .configure c0) ∈ ne →
      ∀ t, s1.pending t = none → ∀ nd nb, s.done = nd ++ s1.done → s.begun = nb ++ s0.begun →
      ∀ (x : Arr (Fp double)) (di dO : Dict) (m n : List Char) res, (t, .regrid x di dO m, res) ∈ nd →
      GridSpec.Plain w.P di → GridSpec.Plain w.P dO → Published m n →
      OutcomeD w.P es weights x di dO n res ∨ res = .error .value ∧ ∃ cfg, PipeOp.configure cfg ∈ nb ∧ ForbiddenBy w.P es memory cfg di dO n := by
  obtain ⟨ix, hl, hc, hall⟩ := plain_any w ho f es hv hf hn hu hs weights (fun e => memory e.shown)
  refine ⟨ix, hl, fun s0 s1 s h0 h1 h2 hus hso hq ne u c0 hne hin t ht nd nb hd hb x di dO m n res hmem pi pO hm => ?_⟩
  obtain ⟨nb1, nl1, ne1, hS1⟩ := since_steps w hw sizeFn _ hc h0 h1 (since_start (inv_steps w hw sizeFn _ hc s0 h0) hq)
  have e1 : ne1 ++ [] = ne := by
    have := hS1.ended
    rw [hne] at this
    exact (List.append_cancel_right this).symm
  obtain ⟨nb', nl', ne', nd', hS, hd', hgood⟩ := recent w hw sizeFn _ hc (steps_trans h0 h1) hS1 (by rw [e1]; exact hin) t ht h2 hso hus
  have e2 : nd' = nd := by
    rw [hd] at hd'
    exact (List.append_cancel_right hd').symm
  have e3 : nb' = nb := by
    have := hS.begun
    rw [hb] at this
    exact (List.append_cancel_right this).symm
  subst e2 e3
  exact good_outcome hwf (hall x di dO m n pi pO hm dO rfl) (hgood _ hmem rfl)

/-- C143: no regrid is stuck: whatever the state of the threads, a thread in a regrid gets its result by steps of its own, after at most the steps
with which the holder of the lock leaves it; nobody else has to move. -/
theorem C143_returns (w : World) (hw : w.Sane) (ho : Enumerates w.order) (sizeFn : Csr (Fp double) → Nat) (f : IndexFile) (es : List (String × Raw))
    (hv : OneVersion f.version) (hf : f.matrix = some es) (hn : (es.map Prod.fst).Nodup) (hu : ∀ e ∈ es, Index.Usable w.P e.2)
    (hs : ∀ e ∈ es, ∃ shape, GivenShape e.2 shape) (weights : String × Raw → Except Err (Csr (Fp double)))
    (memory : String × Raw → Option Int) :
    ∃ ix, load w.P f = .ok ix ∧ ∀ (s : Sys (Fp double)), Steps w sizeFn ⟨ix, fun e => memory e.shown, fun e => weights e.shown⟩ start s →
      ∀ t (x : Arr (Fp double)) (di dO : Dict) (m : List Char), s.pending t = some (.regrid x di dO m) →
      ∃ s' res, Steps w sizeFn ⟨ix, fun e => memory e.shown, fun e => weights e.shown⟩ s s' ∧ s'.done = (t, .regrid x di dO m, res) :: s.done ∧
        s'.begun = s.begun ∧ s'.pending t = none ∧ ∀ u, u ≠ t → s'.pending u = s.pending u ∧ (s.conf.lock ≠ some u → s'.conf.th u = s.conf.th u) := by
  obtain ⟨ix, hl, hc, -⟩ := plain_any w ho f es hv hf hn hu hs weights (fun e => memory e.shown)
  refine ⟨ix, hl, fun s hst t x di dO m hp => ?_⟩
  obtain ⟨s', h⟩ := over_any w sizeFn ⟨ix, fun e => memory e.shown, fun e => weights e.shown⟩ t x di dO m hw hc s (inv_steps w hw sizeFn _ hc s hst) hp
  obtain ⟨r, hr⟩ := h.result
  exact ⟨s', r, h.steps, hr, h.begun, h.idle, h.others⟩

/-! ## The hypotheses can be met -/

namespace Demo
open Verif.Regrid.Demo

/-- A thread configures while the others rest or wait. -/
theorem configures (w : World) (sizeFn : Csr (Fp double) → Nat) (inv : Inventory (Fp double)) (s : Sys (Fp double)) (u : Nat) (cfg : MemCache.Cfg)
    (hi : s.conf.th u = .idle) (hl : s.conf.lock = none) :
    ∃ s', Steps w sizeFn inv s s' ∧ s'.pending u = none ∧ s'.conf.th u = .idle ∧ s'.conf.lock = none ∧ s'.begun = .configure cfg :: s.begun ∧
      s'.ended = (u, .configure cfg) :: s.ended ∧ s'.done = s.done ∧ ∀ v, v ≠ u → s'.pending v = s.pending v ∧ s'.conf.th v = s.conf.th v := by
  have h1 : TStep w sizeFn inv s _ := .call s u (.configure cfg) (.update cfg) hi rfl
  have h2 := Steps.none.step h1
  have h3 := h2.step (.inside _ _ ⟨.toLock _ u (.op (.update cfg)) (setTh_same _ _ _) (by intro src q h; cases h), .inl rfl⟩)
  have h4 := h3.step (.inside _ _ ⟨.acquire _ u (.op (.update cfg)) (setTh_same _ _ _) hl, .inl rfl⟩)
  have h5 := h4.step (.inside _ _ ⟨.first _ u (.op (.update cfg)) (setTh_same _ _ _), .inr ⟨_, _, _, rfl⟩⟩)
  have h6 := h5.step (.inside _ _ ⟨.second _ u (.op (.update cfg)) _ (setTh_same _ _ _), .inl rfl⟩)
  have h7 := h6.step (.finish _ u (.configure cfg) _ (setPending_same _ _ _) (setTh_same _ _ _))
  refine ⟨_, h7, setPending_same _ _ _, setTh_same _ _ _, rfl, rfl, rfl, rfl, ?_⟩
  intro v hv
  simp only [setPending_other _ _ _ _ hv, setTh_other _ _ _ _ hv, and_self]

/-- A thread begins a call. -/
theorem begins (w : World) (sizeFn : Csr (Fp double) → Nat) (inv : Inventory (Fp double)) (s : Sys (Fp double)) (u : Nat) (call : PipeOp (Fp double)) (o)
    (hi : s.conf.th u = .idle) (h : lookupOf w inv call = .ok o) :
    ∃ s', Steps w sizeFn inv s s' ∧ s'.pending u = some call ∧ s'.conf.lock = s.conf.lock ∧ s'.begun = call :: s.begun ∧
      s'.ended = s.ended ∧ s'.done = s.done ∧ ∀ v, v ≠ u → s'.pending v = s.pending v ∧ s'.conf.th v = s.conf.th v :=
  ⟨_, Steps.none.step (.call s u call o hi h), setPending_same _ _ _, rfl, rfl, rfl, rfl, fun v hv => by
    simp only [setPending_other _ _ _ _ hv, setTh_other _ _ _ _ hv, and_self]⟩

def theCall : PipeOp (Fp double) := .regrid ⟨[2], [.fin 1, .fin 2]⟩ (orca (some shape)) (orca (some shape)) "nn".toList

def loose : MemCache.Cfg := ⟨some (some 100), true, some .lru⟩
def tight : MemCache.Cfg := ⟨some (some 99), true, some .lru⟩

/-- All three: thread 2 is in the middle of a regrid throughout, thread 1 makes a configuration that forbids the published 100 bytes and then one
that does not; the regrid that thread 0 begins afterwards gets its result, and that is the one C135 describes. -/
example (P : Py) : ∃ ix, load P file = .ok ix ∧ ∃ s res, Steps (world P) (fun _ => 50) ⟨ix, fun _ => some 100, fun _ => .ok demoD⟩ start s ∧
    s.pending 2 = some theCall ∧ PipeOp.configure tight ∈ s.begun ∧ (0, theCall, res) ∈ s.done ∧
    OutcomeD P [("i", iconShaped), ("w", raw)] (fun _ => .ok demoD) ⟨[2], [.fin 1, .fin 2]⟩ (orca (some shape)) (orca (some shape)) "nearest-neighbour".toList res := by
  obtain ⟨ix, hl, hnow⟩ := C143_now (world P) (world_sane P) (fun _ => Iff.rfl) (fun _ => 50) file _ (.inl rfl) rfl (by decide)
    (file_usable P) file_shapes (fun _ => .ok demoD) (by intro r z h; cases h; exact demoD_wf) (fun _ => some 100)
  obtain ⟨ix', hl', hret⟩ := C143_returns (world P) (world_sane P) (fun _ => Iff.rfl) (fun _ => 50) file _ (.inl rfl) rfl (by decide)
    (file_usable P) file_shapes (fun _ => .ok demoD) (fun _ => some 100)
  obtain ⟨ix'', hl'', hout⟩ := C143_outcome (world P) (world_sane P) (fun _ => Iff.rfl) (fun _ => 50) file _ (.inl rfl) rfl (by decide)
    (file_usable P) file_shapes (fun _ => .ok demoD) (by intro r z h; cases h; exact demoD_wf) (fun _ => some 100)
  rw [hl] at hl' hl''
  cases hl'; cases hl''
  refine ⟨ix, hl, ?_⟩
  obtain ⟨g, hg⟩ := plain_accepted (orca_plain P (some shape))
  have hlook : lookupOf (world P) ⟨ix, fun _ => some 100, fun _ => .ok demoD⟩ theCall =
      .ok (.get (source (world P) ⟨ix, fun _ => some 100, fun _ => .ok demoD⟩) ⟨g, g, "nn".toList⟩) := by
    show lookupOf _ _ (.regrid _ _ _ _) = _
    simp only [lookupOf, show fromDict (world P).P (orca (some shape)) = .ok g from hg]
  -- thread 2 begins a regrid, thread 1 configures twice
  obtain ⟨sA, hA, a1, a2, a3, a4, a5, a6⟩ := begins (world P) (fun _ => 50) ⟨ix, fun _ => some 100, fun _ => .ok demoD⟩ start 2 theCall _ rfl hlook
  obtain ⟨sB, hB, b1, b2, b3, b4, b5, b6, b7⟩ := configures (world P) (fun _ => 50) ⟨ix, fun _ => some 100, fun _ => .ok demoD⟩ sA 1 tight
    (a6 1 (by decide)).2 a2
  obtain ⟨sC, hC, c1, c2, c3, c4, c5, c6, c7⟩ := configures (world P) (fun _ => 50) ⟨ix, fun _ => some 100, fun _ => .ok demoD⟩ sB 1 loose b2 b3
  have hAB := steps_trans hA hB
  have hAC := steps_trans hAB hC
  -- thread 0 regrids
  have zp : sC.pending 0 = none := by rw [(c7 0 (by decide)).1, (b7 0 (by decide)).1, (a6 0 (by decide)).1]; rfl
  obtain ⟨sD, hD, d1, d2, d3, d4, d5, d6⟩ := begins (world P) (fun _ => 50) ⟨ix, fun _ => some 100, fun _ => .ok demoD⟩ sC 0 theCall _
    (by rw [(c7 0 (by decide)).2, (b7 0 (by decide)).2, (a6 0 (by decide)).2]; rfl) hlook
  obtain ⟨s, res, hE, e1, e2, e3, e4⟩ := hret sD (steps_trans hAC hD) 0 _ _ _ _ d1
  have hbeg : s.begun = [theCall, .configure loose, .configure tight, theCall] := by rw [e2, d3, c4, b4, a3]; rfl
  have hsound : HistorySound s.begun := by
    intro cfg hc
    rw [hbeg] at hc
    simp [theCall] at hc
    rcases hc with rfl | rfl
    · exact ⟨_, _, rfl, rfl, fun _ => ⟨100, rfl, by decide⟩⟩
    · exact ⟨_, _, rfl, rfl, fun _ => ⟨99, rfl, by decide⟩⟩
  have husable : HistoryUsable (world P) s.begun := by
    intro x di dO m h
    rw [hbeg] at h
    simp [theCall] at h
    obtain ⟨_, rfl, rfl, _⟩ := h
    exact ⟨usable P, usable P⟩
  have hall := steps_trans (steps_trans hAC hD) hE
  have hdone : s.done = (0, theCall, res) :: sC.done := by rw [e1, d5]; rfl
  -- what `C143_outcome` says by itself
  have := hout s hall husable hsound 0 _ _ _ _ _ res (by rw [hdone]; exact List.mem_cons_self ..) (orca_plain P _) (orca_plain P _) .short
  refine ⟨s, res, hall, ?_, by rw [hbeg]; simp, by rw [hdone]; simp, ?_⟩
  · rw [(e4 2 (by decide)).1, (d6 2 (by decide)).1, (c7 2 (by decide)).1, (b7 2 (by decide)).1, a1]
  · refine (hnow sB sC s hAB hC (steps_trans hD hE) husable hsound ?_ [(1, .configure loose)] 1 loose c5 (by simp) 0 zp [(0, theCall, res)]
      [theCall, .configure loose] hdone (by rw [hbeg, b4, a3]; rfl) _ _ _ _ _ res (List.mem_cons_self ..) (orca_plain P _) (orca_plain P _) .short).resolve_right ?_
    · intro t cfg h
      by_cases h1 : t = 1
      · rw [h1, b1] at h; cases h
      · rw [(b7 t h1).1] at h
        by_cases h2 : t = 2
        · rw [h2, a1] at h; cases h
        · rw [(a6 t h2).1] at h; cases h
    · rintro ⟨-, cfg, h1, r, size, h2, h3, h4⟩
      simp [theCall] at h1
      subst h1
      cases h3
      obtain ⟨_, e, hlt⟩ := h4.over
      cases e
      exact absurd hlt (by decide)

end Demo

end Verif.Regrid.Threads
