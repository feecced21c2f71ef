import Verif.Regrid.PlainDouble

/-!
# Strict mode from the index file and the request to the values (C142)

C135 without its hypothesis on the settings: strict mode may be on, now or at any earlier point of the history.
-/

namespace Verif.Regrid
open Verif.GridSpec Verif.Index Finset

/-! ## Specification -/

/-- The configurations of a history are valid (memcache.py:117-120, 144-148: a limited policy comes with a positive limit). -/
def HistorySound {α : Type} (h : List (PipeOp α)) : Prop := ∀ cfg, PipeOp.configure cfg ∈ h → cfg.Valid

/-- The configuration made last. -/
def InForce {α : Type} (h : List (PipeOp α)) (cfg : MemCache.Cfg) : Prop :=
  ∃ pre post, h = pre ++ .configure cfg :: post ∧ ∀ c, PipeOp.configure c ∉ post

/-- A configuration in which weights published as `size` bytes are not to be loaded. -/
structure Forbids (cfg : MemCache.Cfg) (size : Int) : Prop where
  strict : cfg.strict = true
  limited : cfg.policy = some .lru ∨ cfg.policy = some .largest
  over : ∃ limit, cfg.maxMem = some (some limit) ∧ limit < size

/-- The weights for the request are published with a size that the configuration in force forbids. -/
def TooLarge {α : Type} (P : Py) (es : List (String × Raw)) (memory : String × Raw → Option Int) (h : List (PipeOp α)) (di dO : Dict) (m : List Char) : Prop :=
  ∃ cfg r size, InForce h cfg ∧ First (Index.Answers P di dO m) es (some r) ∧ memory r = some size ∧ Forbids cfg size

/-! ## Lemmas -/

section
variable {α : Type}

theorem inForce_unique {h : List (PipeOp α)} {a b : MemCache.Cfg} (ha : InForce h a) (hb : InForce h b) : a = b := by
  obtain ⟨p, q, rfl, hq⟩ := ha
  obtain ⟨p', q', he, hq'⟩ := hb
  rcases List.append_eq_append_iff.1 he with ⟨l, rfl, h2⟩ | ⟨l, rfl, h2⟩
  · cases l with
    | nil => cases h2; rfl
    | cons x l => cases h2; exact absurd (by simp) (hq b)
  · cases l with
    | nil => cases h2; rfl
    | cons x l => cases h2; exact absurd (by simp) (hq' a)

theorem inForce_or (h : List (PipeOp α)) : (∃ cfg, InForce h cfg) ∨ ∀ c, PipeOp.configure c ∉ h := by
  induction h with
  | nil => exact .inr (by simp)
  | cons op h ih =>
    rcases ih with ⟨cfg, p, q, rfl, hq⟩ | hn
    · exact .inl ⟨cfg, op :: p, q, rfl, hq⟩
    · cases op with
      | configure c => exact .inl ⟨c, [], h, rfl, hn⟩
      | regrid x di dO m => exact .inr (by simpa using hn)
      | clear => exact .inr (by simpa using hn)

theorem asOps_update (w : World) (inv : Inventory α) (h : List (PipeOp α)) (cfg : MemCache.Cfg)
    (hm : MemCache.Op.update cfg ∈ h.flatMap (asOps w inv)) : PipeOp.configure cfg ∈ h := by
  obtain ⟨op, hop, hm⟩ := List.mem_flatMap.1 hm
  cases op with
  | regrid x di dO m =>
    simp only [asOps] at hm
    cases hi : fromDict w.P di with
    | error e => rw [hi] at hm; cases hm
    | ok gi =>
      cases ho : fromDict w.P dO with
      | error e => rw [hi, ho] at hm; cases hm
      | ok go => rw [hi, ho] at hm; simp at hm
  | configure c => simp [asOps] at hm; subst hm; exact hop
  | clear => simp [asOps] at hm

theorem lastCfg_none {Q W S : Type} (ops : List (MemCache.Op Q W S)) (h : ∀ cfg, MemCache.Op.update cfg ∉ ops) : MemCache.lastCfg ops = none := by
  induction ops with
  | nil => rfl
  | cons a ops ih =>
    have ih := ih (fun cfg hm => h cfg (by simp [hm]))
    cases a with
    | get src q => exact ih
    | update cfg => exact absurd (by simp) (h cfg)
    | clear => exact ih

theorem lastCfg_split {Q W S : Type} (pre post : List (MemCache.Op Q W S)) (cfg : MemCache.Cfg) (h : ∀ c, MemCache.Op.update c ∉ post) :
    MemCache.lastCfg (pre ++ .update cfg :: post) = some cfg := by
  induction pre with
  | nil => simp only [List.nil_append, MemCache.lastCfg, lastCfg_none post h]
  | cons a pre ih => cases a <;> simp only [List.cons_append, MemCache.lastCfg, ih]

theorem lastCfg_inForce (w : World) (inv : Inventory α) {h : List (PipeOp α)} {cfg : MemCache.Cfg} (hi : InForce h cfg) :
    MemCache.lastCfg (h.flatMap (asOps w inv)) = some cfg := by
  obtain ⟨p, q, rfl, hq⟩ := hi
  simp only [List.flatMap_append, List.flatMap_cons]
  exact lastCfg_split _ _ cfg (fun c hm => hq c (asOps_update w inv q c hm))

end

section
variable {K Q W S : Type} [LinearOrder K]
open MemCache

/-- A lookup comes to what it comes to without the cache, or is refused in strict mode: the estimate is over the limit. -/
theorem get_or_refused (key : Q → K) (sizeFn : W → Nat)
    (src : MemCache.Source Q W S) (ops : List (Op Q W S)) (hs : OnlySource src ops) (hv : OpsValid ops) (q : Q)
    (hk : ∀ q', Op.get src q' ∈ ops → key q' = key q → src.create q' = src.create q) :
    let s := run key sizeFn (MemCache.initial : Cache K W S) ops
    (get key sizeFn src q s).1.res = src.create q ∨
      (get key sizeFn src q s).1.res = .error .tooLarge ∧ Limited s.policy ∧ s.strict = true ∧
        ∃ e m, src.findEntry q = .ok (some e) ∧ s.maxMem = some m ∧ m < estimate e := by
  have hc01 := C01_currsize_below_limit (S := S) key sizeFn ops hv
  have h03 := C03_cached_result_is_uncached_result (S := S) key sizeFn src ops hs q (hk := hk)
  have hfit := C09_fitting_never_refused (S := S) key sizeFn ops hv src q
  have hacc := run_acc (S := S) key sizeFn ops
  intro s
  show (get key sizeFn src q s).1.res = _ ∨ _
  change ∀ m, Limited s.policy → ¬ Holds s (key q) → s.maxMem = some m → _ → (get key sizeFn src q s).1 = _ at hfit
  change Limited s.policy → ∃ m, s.maxMem = some m ∧ 0 < m ∧ _ at hc01
  change ∀ d, (get key sizeFn src q s).1.res = .ok d → _ at h03
  change Acc s at hacc
  generalize s = s at *
  have h := get_cases key sizeFn src q s hacc
  generalize (get key sizeFn src q s).1 = o at h h03 hfit ⊢
  generalize (get key sizeFn src q s).2 = s' at h
  cases h with
  | hit => exact .inl (h03 _ rfl).symm
  | off => exact .inl rfl
  | unlErr _ _ e hc => exact .inl hc.symm
  | unlNone _ _ e hc => exact .inl hc.symm
  | unlSome _ _ w e hc => exact .inl hc.symm
  | limErr hl hh ev kept ho _ e c hc =>
    rcases hc with hc | ⟨_, en, hen, hc | hc⟩
    · exact .inl hc.1.symm
    · obtain ⟨rfl, hst, m, hm, -⟩ := hc
      by_cases hle : estimate en ≤ m
      · have := hfit m hl hh hm (fun e he => by rw [hen] at he; cases he; exact hle)
        exact .inl (congrArg Out.res this)
      · exact .inr ⟨rfl, hl, hst, en, m, hen, hm, by omega⟩
    · obtain ⟨m, h1, h2, _⟩ := hc01 hl
      exact absurd ⟨m, h1, h2⟩ hc.1
  | limNone _ _ _ _ _ _ _ hc => exact .inl hc.symm
  | limSome _ _ _ _ _ _ _ _ hc => exact .inl hc.symm
  | limBad hl _ _ _ _ hbad =>
    obtain ⟨m, h1, h2, _⟩ := hc01 hl
    exact absurd ⟨m, h1, h2⟩ hbad

end

section
variable {α : Type} [Zero α] [Add α] [Mul α]

theorem dbFind_strict (w : World) (hw : w.Sane) (sizeFn : Csr α → Nat) (inv : Inventory α) (hc : Index.Clean w.P inv.index)
    (h : List (PipeOp α)) (hu : HistoryUsable w h) (hv : HistorySound h)
    (di dO : Dict) (ui : Usable w di) (uo : Usable w dO) (m : List Char) (gi go : GS) (hi : fromDict w.P di = .ok gi) (ho : fromDict w.P dO = .ok go) :
    (dbFind w sizeFn inv di dO m (pipeRun w sizeFn inv h)).1 = findPlain w inv di dO m ∨
      (dbFind w sizeFn inv di dO m (pipeRun w sizeFn inv h)).1 = .error .value ∧
      ∃ cfg e size, InForce h cfg ∧ Index.find w.P w.order inv.index gi.d go.d (Index.methodAlias m) = .ok (some e) ∧ inv.memory e = some size ∧
        Forbids cfg size := by
  have hsound : MemCache.OpsValid (h.flatMap (asOps w inv)) := fun cfg hm => hv cfg (asOps_update w inv h cfg hm)
  have key := get_or_refused w.key sizeFn (source w inv) (h.flatMap (asOps w inv))
    (fun src q hq => (asOps_get w inv h hu src q hq).1) hsound ⟨gi, go, m⟩
    (fun q hq hk => by rw [key_inj w hw q ⟨gi, go, m⟩ (asOps_get w inv h hu _ q hq).2 ⟨di, dO, ui, uo, hi, ho⟩ hk])
  have h75 := MemCache.C75_follows_last_configuration (S := List Nat) w.key sizeFn (h.flatMap (asOps w inv)) hsound
  have hlen := run_lenient (S := List Nat) w.key sizeFn (h.flatMap (asOps w inv))
  simp only at key h75
  rw [← pipeRun_eq] at key h75 hlen
  simp only [dbFind, findPlain, hi, ho]
  generalize pipeRun w sizeFn inv h = s at *
  generalize MemCache.get w.key sizeFn (source w inv) ⟨gi, go, m⟩ s = y at *
  obtain ⟨⟨res, c⟩, t⟩ := y
  simp only at key
  rcases key with key | ⟨key, hl, hst, e, lim, he, hmax, hlt⟩
  · left
    subst key
    rw [create_eq w inv hc]
    simp only
    cases lookupPlain w inv gi go m with
    | error e => simp only [ofCache, code_ofCode]
    | ok o =>
      cases o with
      | none => rfl
      | some q => rfl
  · right
    subst key
    refine ⟨rfl, ?_⟩
    rcases inForce_or h with ⟨cfg, hf⟩ | hno
    · obtain ⟨h1, h2⟩ := h75 cfg (lastCfg_inForce w inv hf)
      simp only [MemCache.info] at h1 h2
      obtain ⟨h2, h3⟩ := h2 hl
      simp only [source] at he
      cases hfd : Index.find w.P w.order inv.index gi.d go.d (Index.methodAlias m) with
      | error x => rw [hfd] at he; cases he
      | ok o =>
        cases o with
        | none => rw [hfd] at he; cases he
        | some e0 =>
          rw [hfd] at he
          cases he
          obtain ⟨v, p, v1, v2, v3⟩ := hv cfg (by obtain ⟨a, b, rfl, -⟩ := hf; simp)
          have hp : p = .lru ∨ p = .largest := by
            rw [v2] at h1; cases h1; exact hl
          obtain ⟨lim', rfl, hpos⟩ := v3 hp
          rw [hmax, v1] at h2
          cases h2
          simp only [MemCache.estimate] at hlt
          cases hmem : inv.memory e0 with
          | none => rw [hmem] at hlt; simp at hlt; omega
          | some size =>
            rw [hmem] at hlt
            exact ⟨cfg, e0, size, hf, rfl, hmem, by rw [← h3]; exact hst, by rw [v2]; rcases hp with rfl | rfl <;> simp, lim, v1, hlt⟩
    · rw [hlen (fun cfg hm => absurd (asOps_update w inv h cfg hm) (hno cfg))] at hst
      cases hst

/-- In strict mode, with nothing held, weights over the limit are refused and the cache is as before. -/
theorem dbFind_refused (w : World) (sizeFn : Csr α → Nat) (inv : Inventory α)
    (h : List (PipeOp α)) (hv : HistorySound h) (di dO : Dict) (m : List Char) (gi go : GS) (hi : fromDict w.P di = .ok gi) (ho : fromDict w.P dO = .ok go)
    (cfg : MemCache.Cfg) (e : Index.Entry) (size : Int) (hf : InForce h cfg)
    (hfd : Index.find w.P w.order inv.index gi.d go.d (Index.methodAlias m) = .ok (some e)) (hmem : inv.memory e = some size) (hb : Forbids cfg size)
    (hempty : (MemCache.info (pipeRun w sizeFn inv h)).count = 0) :
    dbFind w sizeFn inv di dO m (pipeRun w sizeFn inv h) = (.error .value, pipeRun w sizeFn inv h) := by
  have hsound : MemCache.OpsValid (h.flatMap (asOps w inv)) := fun cfg hm => hv cfg (asOps_update w inv h cfg hm)
  have h75 := MemCache.C75_follows_last_configuration (S := List Nat) w.key sizeFn (h.flatMap (asOps w inv)) hsound cfg (lastCfg_inForce w inv hf)
  obtain ⟨lim, hl1, hl2⟩ := hb.over
  have key := MemCache.C09_strict_refuses_oversized (S := List Nat) w.key sizeFn (h.flatMap (asOps w inv)) (source w inv) ⟨gi, go, m⟩
    ⟨some size, posOf inv.index e.name⟩ lim
  simp only at h75
  rw [← pipeRun_eq] at key h75
  simp only [dbFind, hi, ho]
  generalize pipeRun w sizeFn inv h = s at *
  simp only [MemCache.info] at h75 hempty
  obtain ⟨h1, h2⟩ := h75
  have hl : MemCache.Limited s.policy := by
    rcases hb.limited with h | h <;> rw [h] at h1
    · exact .inl (Option.some.inj h1)
    · exact .inr (Option.some.inj h1)
  obtain ⟨h2, h3⟩ := h2 hl
  rw [key hl (by rw [h3]; exact hb.strict)
    (by rintro ⟨it, hit, -⟩; rw [List.length_eq_zero_iff.1 hempty] at hit; cases hit)
    (by rw [hl1] at h2; exact Option.some.inj h2) (by simp only [source, hfd, hmem]) hl2]
  rfl

end

/-! ## C142 -/

/-- C142: with valid settings, strict or not, a regrid in doubles at any point of any history comes to what C135 says, or raises ValueError because
the weights are published with a size over the limit in force in strict mode. -/
theorem C142_outcome (w : World) (hw : w.Sane) (ho : Enumerates w.order) (sizeFn : Csr (Fp double) → Nat) (f : IndexFile) (es : List (String × Raw))
    (hv : OneVersion f.version) (hf : f.matrix = some es) (hn : (es.map Prod.fst).Nodup) (hu : ∀ e ∈ es, Index.Usable w.P e.2)
    (hs : ∀ e ∈ es, ∃ shape, GivenShape e.2 shape) (weights : String × Raw → Except Err (Csr (Fp double))) (hwf : ∀ r z, weights r = .ok z → z.WF)
    (memory : String × Raw → Option Int) :
    ∃ ix, load w.P f = .ok ix ∧ ∀ (h : List (PipeOp (Fp double))), HistoryUsable w h → HistorySound h →
      ∀ (x : Arr (Fp double)) (di dO : Dict) (m n : List Char),
      GridSpec.Plain w.P di → GridSpec.Plain w.P dO → Usable w di → Usable w dO → Published m n → ∀ res,
      (regridArray w sizeFn ⟨ix, fun e => memory e.shown, fun e => weights e.shown⟩ x di dO m
        (pipeRun w sizeFn ⟨ix, fun e => memory e.shown, fun e => weights e.shown⟩ h)).1 = res →
      OutcomeD w.P es weights x di dO n res ∨ res = .error .value ∧ TooLarge w.P es memory h di dO n := by
  obtain ⟨ix, hl, hc, hall⟩ := plain_any w ho f es hv hf hn hu hs weights (fun e => memory e.shown)
  refine ⟨ix, hl, fun h hh hv' x di dO m n pi pO ui uo hm res hres => ?_⟩
  obtain ⟨ha, gi, go, r, hi, hO, hfd, hfirst⟩ := hall x di dO m n pi pO hm dO rfl
  rw [regridArray_res] at hres
  rcases dbFind_strict w hw sizeFn ⟨ix, fun e => memory e.shown, fun e => weights e.shown⟩ hc h hh hv' di dO ui uo m gi go hi hO with hd | ⟨hd, cfg, e, size, h1, h2, h3, h4⟩
  · left
    rw [hd] at hres
    subst hres
    exact outcomeD_of_applied hwf ha
  · right
    rw [hd] at hres
    subst hres
    refine ⟨rfl, cfg, e.shown, size, h1, ?_, h3, h4⟩
    rw [show Index.find w.P w.order ix gi.d go.d (Index.methodAlias m) = .ok (some e) from h2] at hfd
    cases hfd
    exact hfirst

/-- C142: it is refused indeed when nothing is held, and the refusal leaves the cache as it was. -/
theorem C142_refused (w : World) (ho : Enumerates w.order) (sizeFn : Csr (Fp double) → Nat) (f : IndexFile) (es : List (String × Raw))
    (hv : OneVersion f.version) (hf : f.matrix = some es) (hn : (es.map Prod.fst).Nodup) (hu : ∀ e ∈ es, Index.Usable w.P e.2)
    (hs : ∀ e ∈ es, ∃ shape, GivenShape e.2 shape) (weights : String × Raw → Except Err (Csr (Fp double)))
    (memory : String × Raw → Option Int) :
    ∃ ix, load w.P f = .ok ix ∧ ∀ (h : List (PipeOp (Fp double))), HistorySound h →
      ∀ (x : Arr (Fp double)) (di dO : Dict) (m n : List Char),
      GridSpec.Plain w.P di → GridSpec.Plain w.P dO → Published m n → TooLarge w.P es memory h di dO n →
      ∀ s, s = pipeRun w sizeFn ⟨ix, fun e => memory e.shown, fun e => weights e.shown⟩ h → (MemCache.info s).count = 0 →
      regridArray w sizeFn ⟨ix, fun e => memory e.shown, fun e => weights e.shown⟩ x di dO m s = (.error .value, s) := by
  obtain ⟨ix, hl, hc, hall⟩ := plain_any w ho f es hv hf hn hu hs weights (fun e => memory e.shown)
  refine ⟨ix, hl, fun h hv' x di dO m n pi pO hm ht s hs' hcount => ?_⟩
  obtain ⟨ha, gi, go, r, hi, hO, hfd, hfirst⟩ := hall x di dO m n pi pO hm dO rfl
  obtain ⟨cfg, r', size, h1, h2, h3, h4⟩ := ht
  have := first_unique hfirst h2
  cases r with
  | none => cases this
  | some e =>
    cases this
    subst hs'
    have hd := dbFind_refused w sizeFn ⟨ix, fun e => memory e.shown, fun e => weights e.shown⟩ h hv' di dO m gi go hi hO cfg e size h1 hfd h3 h4 hcount
    have e1 := regridArray_res w sizeFn ⟨ix, fun e => memory e.shown, fun e => weights e.shown⟩ x di dO m (pipeRun w sizeFn ⟨ix, fun e => memory e.shown, fun e => weights e.shown⟩ h)
    have e2 := regridArray_state w sizeFn ⟨ix, fun e => memory e.shown, fun e => weights e.shown⟩ x di dO m (pipeRun w sizeFn ⟨ix, fun e => memory e.shown, fun e => weights e.shown⟩ h)
    rw [hd] at e1 e2
    exact Prod.ext e1 e2

/-- C142: strict mode left on earlier does not matter: what counts is the configuration in force, and one that is not strict, or whose policy has no
limit, forbids nothing. -/
theorem C142_now (P : Py) (es : List (String × Raw)) (memory : String × Raw → Option Int) {α : Type} (h : List (PipeOp α)) (di dO : Dict) (m : List Char)
    (cfg : MemCache.Cfg) (hf : InForce h cfg) (hc : cfg.strict = false ∨ cfg.policy = some .off ∨ cfg.policy = some .unlimited) :
    ¬ TooLarge P es memory h di dO m := by
  rintro ⟨cfg', r, size, h1, -, -, h4⟩
  cases inForce_unique hf h1
  rcases hc with hc | hc | hc
  · rw [h4.strict] at hc; cases hc
  · rcases h4.limited with h | h <;> rw [h] at hc <;> cases hc
  · rcases h4.limited with h | h <;> rw [h] at hc <;> cases hc

/-! ## The hypotheses can be met -/

namespace Demo

/-- Strict mode with room for 150 bytes, a regrid, a clear, then a limit below the published 100 bytes. -/
def strictH (limit : Int) : List (PipeOp (Fp double)) := [.configure ⟨some (some 150), true, some .lru⟩,
  .regrid ⟨[2], [.fin 1, .fin 2]⟩ (orca (some shape)) (orca (some shape)) "nn".toList, .configure ⟨some (some limit), true, some .largest⟩, .clear]

theorem strictH_usable (P : Py) (limit : Int) : HistoryUsable (world P) (strictH limit) := by
  intro x di dO m h
  simp [strictH] at h
  obtain ⟨_, rfl, rfl, _⟩ := h
  exact ⟨usable P, usable P⟩

theorem strictH_sound (limit : Int) (h : 0 < limit) : HistorySound (strictH limit) := by
  intro cfg hc
  simp [strictH] at hc
  rcases hc with rfl | rfl
  · exact ⟨_, _, rfl, rfl, fun _ => ⟨150, rfl, by decide⟩⟩
  · exact ⟨_, _, rfl, rfl, fun _ => ⟨limit, rfl, h⟩⟩

theorem strictH_inForce (limit : Int) : InForce (strictH limit) ⟨some (some limit), true, some .largest⟩ :=
  ⟨[.configure ⟨some (some 150), true, some .lru⟩, .regrid ⟨[2], [.fin 1, .fin 2]⟩ (orca (some shape)) (orca (some shape)) "nn".toList], [.clear], rfl, by simp⟩

theorem file_usable (P : Py) : ∀ e ∈ [("i", iconShaped), ("w", raw)], Index.Usable P e.2 := by
  intro e he
  simp only [List.mem_cons, List.not_mem_nil, or_false] at he
  rcases he with rfl | rfl
  · exact .inr (fun h => icon_unaccepted P h.1)
  · exact .inl ⟨_, _, _, .text _ _ rfl, rfl, rfl, orca_plain P _, orca_plain P _⟩

theorem file_shapes : ∀ e ∈ [("i", iconShaped), ("w", raw)], ∃ shape, GivenShape e.2 shape := by
  intro e he
  simp only [List.mem_cons, List.not_mem_nil, or_false] at he
  rcases he with rfl | rfl
  · exact ⟨[3, 1], _, _, rfl, rfl, .inl rfl⟩
  · exact ⟨_, raw_shape⟩

theorem file_first (P : Py) : First (Index.Answers P (orca (some shape)) (orca (some shape)) "nearest-neighbour".toList) [("i", iconShaped), ("w", raw)]
    (some ("w", raw)) := by
  refine .later _ _ _ ?_ (.here _ _ (raw_answers P))
  rintro ⟨i, o, _, hi, _, _, _, ai, _⟩
  cases hi
  exact icon_unaccepted P ai

/-- `C142_refused`: with a limit of 99 the weights published as 100 bytes are refused. -/
example (P : Py) : ∃ ix, load P file = .ok ix ∧
    (regridArray (world P) (fun _ => 50) ⟨ix, fun _ => some 100, fun _ => .ok demoD⟩ ⟨[2], [.fin 1, .fin 2]⟩ (orca (some shape))
      (orca (some shape)) "nn".toList (pipeRun (world P) (fun _ => 50) ⟨ix, fun _ => some 100, fun _ => .ok demoD⟩ (strictH 99))).1 =
      .error .value := by
  obtain ⟨ix, hl, h⟩ := C142_refused (world P) (fun _ => Iff.rfl) (fun _ => 50) file _ (.inl rfl) rfl (by decide)
    (file_usable P) file_shapes (fun _ => .ok demoD) (fun _ => some 100)
  refine ⟨ix, hl, ?_⟩
  rw [h (strictH 99) (strictH_sound 99 (by decide)) ⟨[2], [.fin 1, .fin 2]⟩ _ _ "nn".toList _ (orca_plain P _) (orca_plain P _) .short
    ⟨_, _, 100, strictH_inForce 99, file_first P, rfl, rfl, .inr rfl, 99, rfl, by decide⟩ _ rfl rfl]

/-- `C142_outcome` and `C142_now`: with a limit of 100 they are not, so the result is the one C135 describes. -/
example (P : Py) : ∃ ix, load P file = .ok ix ∧
    OutcomeD P [("i", iconShaped), ("w", raw)] (fun _ => .ok demoD) ⟨[2], [.fin 1, .fin 2]⟩ (orca (some shape)) (orca (some shape)) "nearest-neighbour".toList
      (regridArray (world P) (fun _ => 50) ⟨ix, fun _ => some 100, fun _ => .ok demoD⟩ ⟨[2], [.fin 1, .fin 2]⟩ (orca (some shape))
      (orca (some shape)) "nn".toList (pipeRun (world P) (fun _ => 50) ⟨ix, fun _ => some 100, fun _ => .ok demoD⟩ (strictH 100))).1 := by
  obtain ⟨ix, hl, h⟩ := C142_outcome (world P) (world_sane P) (fun _ => Iff.rfl) (fun _ => 50) file _ (.inl rfl) rfl (by decide)
    (file_usable P) file_shapes (fun _ => .ok demoD) (by intro r z h; cases h; exact demoD_wf) (fun _ => some 100)
  refine ⟨ix, hl, ?_⟩
  refine (h (strictH 100) (strictH_usable P 100) (strictH_sound 100 (by decide)) ⟨[2], [.fin 1, .fin 2]⟩ _ _ "nn".toList _ (orca_plain P _)
    (orca_plain P _) (usable P) (usable P) .short _ rfl).resolve_right ?_
  rintro ⟨-, cfg, r, size, h1, -, h3, h4⟩
  cases inForce_unique (strictH_inForce 100) h1
  cases h3
  obtain ⟨_, e, hlt⟩ := h4.over
  cases e
  exact absurd hlt (by decide)

/-- `C142_now`: strict mode switched off again. -/
example (P : Py) (es : List (String × Raw)) (memory : String × Raw → Option Int) (di dO : Dict) (m : List Char) :
    ¬ TooLarge P es memory (strictH 99 ++ [.configure ⟨some (some 99), false, some .largest⟩]) di dO m :=
  C142_now P es memory _ di dO m ⟨some (some 99), false, some .largest⟩ ⟨_, [], rfl, by simp⟩ (.inl rfl)

end Demo

end Verif.Regrid
