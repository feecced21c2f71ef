import Verif.Regrid.Pipeline
import Verif.Regrid.SparseProps
import Verif.Regrid.Props2
import Verif.Index.Props
import Verif.Json.Props

/-! # C82, C83: the whole way of a regrid with precomputed weights -/

namespace Verif.Regrid
open Verif.GridSpec Verif.Json

/-! ### What is assumed -/

/-- Float texts are float texts, different for different floats, and the digest has no collisions. -/
structure World.Sane (w : World) : Prop where
  text_inj : ∀ p q, w.floatText p = w.floatText q → p = q
  text_form : ∀ q, FloatRepr (w.floatText q)
  digest : ∀ a b, NoCollision w.sha a b

/-- Numbers, text, flags. -/
def Scalar : V → Prop
  | .list _ => False
  | .tuple _ => False
  | _ => True

/-- Scalars and lists of scalars. -/
def Plain (v : V) : Prop := Scalar v ∨ ∃ xs, v = .list xs ∧ ∀ x ∈ xs, Scalar x

/-- A grid description whose values are scalars or sequences of scalars. -/
def PlainDict (d : Dict) : Prop := ∀ k v, d k = some v → Plain v ∨ ∃ xs, v = .tuple xs ∧ ∀ x ∈ xs, Scalar x

/-- The items of a dict. -/
def ItemsOf (d : Dict) (es : List (String × V)) : Prop := (es.map Prod.fst).Nodup ∧ ∀ k v, (k, v) ∈ es ↔ d k = some v

/-- The grid description is plain, and the items of the gridspec made of it (if one is) are its items. -/
def Usable (w : World) (d : Dict) : Prop := PlainDict d ∧ ∀ g, fromDict w.P d = .ok g → ItemsOf g.d (w.items g.d)

/-! ### The key tells requests apart -/

theorem plain_scalar {v : V} (h : Scalar v) : Plain v := .inl h

theorem normalise_plain (d : Dict) (h : PlainDict d) (k : String) (v : V) (hv : normalise (withDefaults d) k = some v) : Plain v := by
  unfold normalise withDefaults at hv
  cases hd : d k with
  | none =>
    rw [hd] at hv
    simp only [DEFAULTS] at hv
    split at hv
    · simp [tupleToList] at hv; subst hv; exact .inl trivial
    · simp at hv
  | some x =>
    rw [hd] at hv
    simp only [Option.map_some, Option.some.injEq] at hv
    subst hv
    rcases h k x hd with hp | ⟨xs, rfl, hx⟩
    · rcases hp with hs | ⟨xs, rfl, hx⟩
      · cases x <;> exact .inl hs
      · exact .inr ⟨xs, rfl, hx⟩
    · exact .inr ⟨xs, rfl, hx⟩

theorem set_plain (d : Dict) (h : ∀ k v, d k = some v → Plain v) (k0 : String) (x : V) (hx : Plain x) :
    ∀ k v, d.set k0 x k = some v → Plain v := by
  intro k v hv
  unfold Dict.set at hv
  split at hv
  · cases hv; exact hx
  · exact h k v hv

theorem setDefault_plain (d : Dict) (h : ∀ k v, d k = some v → Plain v) (k0 : String) (x : V) (hx : Plain x) :
    ∀ k v, d.setDefault k0 x k = some v → Plain v := by
  unfold Dict.setDefault
  split
  · exact h
  · exact set_plain d h k0 x hx

theorem defaultArea_plain : Plain DEFAULT_AREA := by
  refine .inr ⟨_, rfl, ?_⟩
  intro x hx
  simp at hx
  rcases hx with rfl | rfl | rfl | rfl <;> exact trivial

theorem globalArea_plain (x y a : V) (h : globalArea x y = .ok a) : Plain a := by
  unfold globalArea at h
  split at h
  · cases h
  · cases h
  · split at h
    · split at h
      · cases h
        refine .inr ⟨_, rfl, ?_⟩
        intro v hv
        simp at hv
        rcases hv with rfl | rfl | rfl | rfl <;> exact trivial
      · cases h; exact defaultArea_plain
    · cases h; exact defaultArea_plain

theorem fromDict_plain (P : Py) (d : Dict) (h : PlainDict d) (g : GS) (hg : fromDict P d = .ok g) :
    ∀ k v, g.d k = some v → Plain v := by
  obtain ⟨kd, _, hc⟩ := (fromDict_ok P d g).1 hg
  have hn := set_plain _ (normalise_plain d h) "type" (.str kd.name) (.inl trivial)
  generalize (normalise (withDefaults d)).set "type" (.str kd.name) = gs at *
  cases kd with
  | ll =>
    simp only [GridSpec.construct, bind, Except.bind, pure, Except.pure] at hc
    cases hl : llArea gs with
    | error e => rw [hl] at hc; cases hc
    | ok d1 =>
      rw [hl] at hc
      simp only at hc
      have h1 : ∀ k v, d1 k = some v → Plain v := by
        unfold llArea at hl
        split at hl
        · simp only [bind, Except.bind, pure, Except.pure] at hl
          cases e1 : gs.item "grid" with
          | error e => rw [e1] at hl; cases hl
          | ok gr =>
            rw [e1] at hl; simp only at hl
            cases e2 : gr.item 0 with
            | error e => rw [e2] at hl; cases hl
            | ok x =>
              rw [e2] at hl; simp only at hl
              cases e3 : gr.item 1 with
              | error e => rw [e3] at hl; cases hl
              | ok y =>
                rw [e3] at hl; simp only at hl
                cases e4 : globalArea x y with
                | error e => rw [e4] at hl; cases hl
                | ok a =>
                  rw [e4] at hl
                  simp only [Except.ok.injEq] at hl
                  subst hl
                  exact set_plain _ (set_plain _ hn "global" (.int 1) (.inl trivial)) _ _ (globalArea_plain x y a e4)
        · simp only [pure, Except.pure, Except.ok.injEq] at hl; subst hl; exact hn
      cases hf : flagGlobal (d1.setDefault "area" DEFAULT_AREA) with
      | error e => rw [hf] at hc; cases hc
      | ok f => rw [hf] at hc; cases hc; exact setDefault_plain _ h1 _ _ defaultArea_plain
  | rgg =>
    simp only [GridSpec.construct, bind, Except.bind, pure, Except.pure] at hc
    cases hf : flagGlobal (gs.setDefault "area" DEFAULT_AREA) with
    | error e => rw [hf] at hc; cases hc
    | ok f => rw [hf] at hc; cases hc; exact setDefault_plain _ hn _ _ defaultArea_plain
  | healpix =>
    simp only [GridSpec.construct] at hc
    cases hc
    apply setDefault_plain _ _ _ _ defaultArea_plain
    cases ho : gs "ordering" with
    | none => exact hn
    | some v =>
      apply set_plain _ _ _ _ (hn _ _ ho)
      intro k x hx
      unfold Dict.erase at hx
      split at hx
      · cases hx
      · exact hn k x hx
  | orca => simp only [GridSpec.construct] at hc; cases hc; exact hn

theorem toJL_inj (w : World) (hw : w.Sane) : ∀ (xs ys : List V), (∀ x ∈ xs, Scalar x) → (∀ y ∈ ys, Scalar y) →
    JEqL (toJL w.floatText xs) (toJL w.floatText ys) → xs = ys := by
  have scalar : ∀ x y : V, Scalar x → Scalar y → JEq (toJ w.floatText x) (toJ w.floatText y) → x = y := by
    intro x y hx hy h
    cases x <;> cases y <;> simp only [toJ] at h <;> first
      | exact False.elim hx | exact False.elim hy | rfl
      | (cases h; done) | (cases h; rfl) | skip
    rename_i p q
    have hpq : w.floatText p = w.floatText q := by
      generalize w.floatText p = a at *
      generalize w.floatText q = b at *
      cases h; rfl
    rw [hw.text_inj p q hpq]
  intro xs
  induction xs with
  | nil =>
    intro ys _ _ h
    cases ys with
    | nil => rfl
    | cons y ys => simp only [toJL] at h; cases h
  | cons x xs ih =>
    intro ys hx hy h
    cases ys with
    | nil => simp only [toJL] at h; cases h
    | cons y ys =>
      simp only [toJL] at h
      cases h with
      | cons h1 h2 =>
        rw [scalar x y (hx x (by simp)) (hy y (by simp)) h1,
          ih ys (fun a ha => hx a (by simp [ha])) (fun a ha => hy a (by simp [ha])) h2]

theorem toJ_inj (w : World) (hw : w.Sane) (x y : V) (hx : Plain x) (hy : Plain y) (h : JEq (toJ w.floatText x) (toJ w.floatText y)) :
    x = y := by
  rcases hx with hx | ⟨xs, rfl, hxs⟩
  · rcases hy with hy | ⟨ys, rfl, hys⟩
    · have := toJL_inj w hw [x] [y] (by simpa using hx) (by simpa using hy) (by simp only [toJL]; exact .cons h .nil)
      simpa using this
    · simp only [toJ] at h
      cases x <;> simp only [toJ] at h <;> first | (cases h; done) | exact False.elim hx
  · rcases hy with hy | ⟨ys, rfl, hys⟩
    · simp only [toJ] at h
      cases y <;> simp only [toJ] at h <;> first | (cases h; done) | exact False.elim hy
    · simp only [toJ] at h
      cases h with
      | ll h => rw [toJL_inj w hw xs ys hxs hys h]

theorem toJ_wf (w : World) (hw : w.Sane) (x : V) (hx : Plain x) : WF (toJ w.floatText x) := by
  have scalar : ∀ x : V, Scalar x → WF (toJ w.floatText x) := by
    intro x h
    cases x <;> simp only [toJ, WF] <;> first | exact hw.text_form _ | exact False.elim h
  rcases hx with hx | ⟨xs, rfl, hxs⟩
  · exact scalar x hx
  · simp only [toJ, WF]
    induction xs with
    | nil => simp [toJL, WFL]
    | cons x xs ih =>
      simp only [toJL, WFL]
      exact ⟨scalar x (hxs x (by simp)), ih (fun a ha => hxs a (by simp [ha]))⟩

theorem dictJ_wf (w : World) (hw : w.Sane) (d : Dict) (es : List (String × V)) (h : ItemsOf d es) (hp : ∀ k v, d k = some v → Plain v) :
    WF (dictJ w.floatText es) := by
  have hv : ∀ p ∈ es, Plain p.2 := fun p hp' => hp p.1 p.2 ((h.2 p.1 p.2).1 hp')
  simp only [dictJ, WF]
  constructor
  · rw [List.map_map]
    have : ((fun p : String × V => p.1.toList)) = (fun s : String => s.toList) ∘ Prod.fst := rfl
    show (List.map (fun p : String × V => p.1.toList) es).Nodup
    rw [this, ← List.map_map]
    exact h.1.map (fun a b hab => String.toList_inj.1 hab)
  · clear h
    induction es with
    | nil => simp [WFF]
    | cons p es ih =>
      simp only [List.map_cons, WFF]
      exact ⟨toJ_wf w hw p.2 (hv p (by simp)), ih (fun q hq => hv q (by simp [hq]))⟩

theorem jeqF_both : ∀ (gs hs : List (List Char × J)), JEqF gs hs →
    (∀ k v, (k, v) ∈ gs → ∃ u, (k, u) ∈ hs ∧ JEq v u) ∧ ∀ k u, (k, u) ∈ hs → ∃ v, (k, v) ∈ gs ∧ JEq v u := by
  intro gs
  induction gs with
  | nil => intro hs h; cases h; simp
  | cons g gs ih =>
    intro hs h
    cases h with
    | @cons k0 v0 w0 _ hs' h1 h2 =>
      obtain ⟨a, b⟩ := ih hs' h2
      constructor
      · intro k v hm
        rcases List.mem_cons.1 hm with hm | hm
        · cases hm; exact ⟨w0, by simp, h1⟩
        · obtain ⟨u, hu, he⟩ := a k v hm; exact ⟨u, by simp [hu], he⟩
      · intro k u hm
        rcases List.mem_cons.1 hm with hm | hm
        · cases hm; exact ⟨v0, by simp, h1⟩
        · obtain ⟨v, hv, he⟩ := b k u hm; exact ⟨v, by simp [hv], he⟩

theorem dictJ_inj (w : World) (hw : w.Sane) (d d' : Dict) (es es' : List (String × V)) (h : ItemsOf d es) (h' : ItemsOf d' es')
    (hp : ∀ k v, d k = some v → Plain v) (hp' : ∀ k v, d' k = some v → Plain v)
    (he : JEq (dictJ w.floatText es) (dictJ w.floatText es')) : d = d' := by
  have h1 : (∀ k v, d k = some v → d' k = some v) ∧ ∀ k v, d' k = some v → d k = some v := by
    simp only [dictJ] at he
    generalize hfs : es.map (fun p => (p.1.toList, toJ w.floatText p.2)) = fs at he
    generalize hgs : es'.map (fun p => (p.1.toList, toJ w.floatText p.2)) = hs at he
    cases he with
    | @obj _ gs _ hperm hF =>
      obtain ⟨a, b⟩ := jeqF_both _ _ hF
      constructor
      · intro k v hv
        have : (k.toList, toJ w.floatText v) ∈ gs := by
          rw [← hperm.mem_iff, ← hfs]; exact List.mem_map.2 ⟨(k, v), (h.2 k v).2 hv, rfl⟩
        obtain ⟨u, hu, hju⟩ := a _ _ this
        rw [← hgs] at hu
        obtain ⟨⟨k', v'⟩, hm, hkv⟩ := List.mem_map.1 hu
        simp only [Prod.mk.injEq] at hkv
        obtain ⟨hk, rfl⟩ := hkv
        have hk : k' = k := String.toList_inj.1 hk
        subst hk
        have hv' := (h'.2 _ _).1 hm
        rw [toJ_inj w hw v v' (hp _ _ hv) (hp' _ _ hv') hju]
        exact hv'
      · intro k v hv
        have : (k.toList, toJ w.floatText v) ∈ hs := by
          rw [← hgs]; exact List.mem_map.2 ⟨(k, v), (h'.2 k v).2 hv, rfl⟩
        obtain ⟨u, hu, hju⟩ := b _ _ this
        rw [← hperm.mem_iff, ← hfs] at hu
        obtain ⟨⟨k', v'⟩, hm, hkv⟩ := List.mem_map.1 hu
        simp only [Prod.mk.injEq] at hkv
        obtain ⟨hk, rfl⟩ := hkv
        have hk : k' = k := String.toList_inj.1 hk
        subst hk
        have hv' := (h.2 _ _).1 hm
        rw [← toJ_inj w hw v' v (hp _ _ hv') (hp' _ _ hv) hju]
        exact hv'
  funext k
  cases hd : d k with
  | some v => rw [h1.1 k v hd]
  | none =>
    cases hd' : d' k with
    | none => rfl
    | some v => rw [h1.2 k v hd'] at hd; cases hd

/-- A request made by a call with usable grids. -/
def Made (w : World) (r : Request) : Prop :=
  ∃ di dO, Usable w di ∧ Usable w dO ∧ fromDict w.P di = .ok r.gi ∧ fromDict w.P dO = .ok r.go

theorem key_inj (w : World) (hw : w.Sane) (r r' : Request) (h : Made w r) (h' : Made w r') (hk : w.key r = w.key r') : r = r' := by
  obtain ⟨di, dO, ui, uo, fi, fo⟩ := h
  obtain ⟨di', dO', ui', uo', fi', fo'⟩ := h'
  have pi := fromDict_plain w.P di ui.1 r.gi fi
  have po := fromDict_plain w.P dO uo.1 r.go fo
  have pi' := fromDict_plain w.P di' ui'.1 r'.gi fi'
  have po' := fromDict_plain w.P dO' uo'.1 r'.go fo'
  obtain ⟨h1, h2, h3⟩ := (C15_same_slot_iff_same_request w.sha _ _ _ _ _ _ (dictJ_wf w hw _ _ (ui.2 _ fi) pi)
    (dictJ_wf w hw _ _ (uo.2 _ fo) po) (dictJ_wf w hw _ _ (ui'.2 _ fi') pi') (dictJ_wf w hw _ _ (uo'.2 _ fo') po') (hw.digest _ _)).1 hk
  have e1 := dictJ_inj w hw _ _ _ _ (ui.2 _ fi) (ui'.2 _ fi') pi pi' h1
  have e2 := dictJ_inj w hw _ _ _ _ (uo.2 _ fo) (uo'.2 _ fo') po po' h2
  have g1 := C31_idempotent w.P _ _ fi
  have g1' := C31_idempotent w.P _ _ fi'
  have g2 := C31_idempotent w.P _ _ fo
  have g2' := C31_idempotent w.P _ _ fo'
  rw [e1, g1'] at g1
  rw [e2, g2'] at g2
  obtain ⟨a, b, c⟩ := r
  obtain ⟨a', b', c'⟩ := r'
  simp only [Except.ok.injEq] at g1 g2
  simp only at h3
  rw [g1, g2, h3]

/-! ### Strict mode stays off -/

section
open MemCache
variable {Q K W S : Type} [LinearOrder K]

omit [LinearOrder K] in
theorem check_lenient (p : Policy) (s : Cache K W S) (h : s.strict = false) : (check p s).2.strict = false := by
  unfold check
  cases p with
  | off => rfl
  | unlimited => rfl
  | lru =>
    simp only
    cases s.maxMem with
    | none => exact h
    | some m => simp only; split <;> exact h
  | largest =>
    simp only
    cases s.maxMem with
    | none => exact h
    | some m => simp only; split <;> exact h

theorem reduce_lenient (t : Option Int) (s : Cache K W S) (h : s.strict = false) : (reduce t s).2.strict = false := by
  have hc := check_lenient s.policy s h
  unfold reduce
  generalize check s.policy s = r at hc
  obtain ⟨e, s1⟩ := r
  simp only at hc
  cases e with
  | some e => exact hc
  | none =>
    simp only
    split
    · unfold policyReduce
      split <;> exact hc
    · exact hc

theorem update_lenient (cfg : Cfg) (s : Cache K W S) (h : s.strict = false) (hc : cfg.strict = false) : (MemCache.update cfg s).2.strict = false := by
  have h1 : (updateAssign cfg s).2.strict = false := by
    unfold updateAssign
    cases cfg.maxMem with
    | none => exact h
    | some v =>
      simp only
      cases cfg.policy with
      | none => exact hc
      | some p =>
        simp only
        split
        · exact hc
        · have hk := check_lenient p { s with maxMem := v, strict := cfg.strict } hc
          generalize check p { s with maxMem := v, strict := cfg.strict } = r at hk
          obtain ⟨e, s1⟩ := r
          cases e <;> exact hk
  unfold MemCache.update
  generalize updateAssign cfg s = r at h1
  obtain ⟨b, s1⟩ := r
  unfold updateFinish
  cases b with
  | error e => exact h1
  | ok b => cases b with
    | true => exact reduce_lenient none s1 h1
    | false => exact h1

theorem run_lenient (key : Q → K) (sizeFn : W → Nat) (ops : List (Op Q W S)) (h : ∀ cfg, Op.update cfg ∈ ops → cfg.strict = false) :
    (run key sizeFn (MemCache.initial : Cache K W S) ops).strict = false := by
  revert h
  apply run_ind key sizeFn MemCache.initial (fun ops s => (∀ cfg, Op.update cfg ∈ ops → cfg.strict = false) → s.strict = false)
  · intro _; rfl
  · intro ops op ih h
    have ih := ih (fun cfg hc => h cfg (by simp [hc]))
    have hacc := run_acc (S := S) key sizeFn ops
    generalize run key sizeFn (MemCache.initial : Cache K W S) ops = s at *
    cases op with
    | get src q =>
      have h := get_cases key sizeFn src q s hacc
      simp only [step]
      generalize (MemCache.get key sizeFn src q s).1 = o at h
      generalize (MemCache.get key sizeFn src q s).2 = s' at h
      cases h <;> first | exact ih | rfl
    | update cfg => exact update_lenient cfg s ih (h cfg (by simp))
    | clear => exact ih

end

/-! ### What the source gives -/

variable {α : Type}

theorem code_ofCode (e : Err) : Err.ofCode e.code = e := by cases e <;> rfl

/-- The first entry of the index that answers a request. -/
def Answers (w : World) (ix : Index.Index) (gi go : GS) (m : List Char) (e : Index.Entry) : Prop :=
  ∃ pre k post, ix = pre ++ (k, e) :: post ∧ Index.Hit w.P w.order gi go m e ∧ ∀ x ∈ pre, Index.Miss w.P w.order gi go m x.2

theorem getElem_posOf (w : World) (ix : Index.Index) (hc : Index.Clean w.P ix) (k : String) (e : Index.Entry) (h : (k, e) ∈ ix) :
    ix[posOf ix e.name]? = some (k, e) := by
  have hname : ∀ x ∈ ix, x.2.name = x.1 := fun x hx => (hc.forms x hx).1
  unfold posOf
  have hlt : ix.findIdx (fun x => x.2.name == e.name) < ix.length := List.findIdx_lt_length_of_exists ⟨(k, e), h, by simp⟩
  have hp : (ix[ix.findIdx (fun x => x.2.name == e.name)]).2.name = e.name := by
    have := List.findIdx_getElem (p := fun x : String × Index.Entry => x.2.name == e.name) (w := hlt)
    simpa using this
  rw [List.getElem?_eq_getElem hlt]
  have hm := List.getElem_mem hlt
  generalize ix[ix.findIdx (fun x => x.2.name == e.name)] = x at *
  obtain ⟨k', e'⟩ := x
  have h1 := hname _ hm
  have h2 := hname _ h
  simp only at h1 h2 hp
  have hk : k' = k := by rw [← h1, ← h2, hp]
  subst hk
  rw [Index.key_unique ix k' e' e hc.nodup hm h]

/-- The uncached lookup. -/
def lookupPlain (w : World) (inv : Inventory α) (gi go : GS) (m : List Char) : Except Err (Option (Csr α × List Nat)) :=
  match Index.find w.P w.order inv.index gi.d go.d (Index.methodAlias m) with
  | .error e => .error (ofSpec e)
  | .ok none => .ok none
  | .ok (some e) =>
    match readEntry inv e with
    | .error x => .error x
    | .ok p => .ok (some p)

theorem create_eq (w : World) (inv : Inventory α) (hc : Index.Clean w.P inv.index) (r : Request) :
    (source w inv).create r = match lookupPlain w inv r.gi r.go r.method with
      | .error e => .error (.source e.code)
      | .ok none => .ok (none, none)
      | .ok (some (z, s)) => .ok (some z, some s) := by
  unfold MemCache.Source.create lookupPlain source
  simp only
  cases hf : Index.find w.P w.order inv.index r.gi.d r.go.d (Index.methodAlias r.method) with
  | error e => rfl
  | ok o =>
    cases o with
    | none => rfl
    | some e =>
      obtain ⟨gi, go, _, _, hs⟩ := (Index.find_ok ..).1 hf
      obtain ⟨pre, k, post, hix, _⟩ := (Index.search_some ..).1 hs
      have hm : (k, e) ∈ inv.index := by rw [hix]; simp
      simp only [getElem_posOf w inv.index hc k e hm]
      cases readEntry inv e with
      | error x => rfl
      | ok p => rfl

/-! ### Histories of calls -/

/-- What a process does: regrids, configuration changes, clearing the cache. -/
inductive PipeOp (α : Type) where
  | regrid (x : Arr α) (di dO : Dict) (m : List Char)
  | configure (cfg : MemCache.Cfg)
  | clear

abbrev PCache (α : Type) := MemCache.Cache (List Char) (Csr α) (List Nat)

section
variable [Zero α] [Add α] [Mul α]

def pipeStep (w : World) (sizeFn : Csr α → Nat) (inv : Inventory α) (s : PCache α) : PipeOp α → PCache α
  | .regrid x di dO m => (regridArray w sizeFn inv x di dO m s).2
  | .configure cfg => (MemCache.update cfg s).2
  | .clear => MemCache.clear s

/-- The cache after a history. -/
def pipeRun (w : World) (sizeFn : Csr α → Nat) (inv : Inventory α) (h : List (PipeOp α)) : PCache α :=
  h.foldl (pipeStep w sizeFn inv) MemCache.initial

def asOps (w : World) (inv : Inventory α) : PipeOp α → List (MemCache.Op Request (Csr α) (List Nat))
  | .regrid _ di dO m =>
    match fromDict w.P di with
    | .error _ => []
    | .ok gi =>
      match fromDict w.P dO with
      | .error _ => []
      | .ok go => [.get (source w inv) ⟨gi, go, m⟩]
  | .configure cfg => [.update cfg]
  | .clear => [.clear]

theorem regridArray_state (w : World) (sizeFn : Csr α → Nat) (inv : Inventory α) (x : Arr α) (di dO : Dict) (m : List Char) (s : PCache α) :
    (regridArray w sizeFn inv x di dO m s).2 = (dbFind w sizeFn inv di dO m s).2 := by
  unfold regridArray matrixBackend
  simp only [ne_eq, not_true, if_false]
  generalize dbFind w sizeFn inv di dO m s = y
  obtain ⟨y, t⟩ := y
  cases y <;> rfl

theorem pipeStep_eq (w : World) (sizeFn : Csr α → Nat) (inv : Inventory α) (s : PCache α) (op : PipeOp α) :
    pipeStep w sizeFn inv s op = MemCache.run w.key sizeFn s (asOps w inv op) := by
  cases op with
  | regrid x di dO m =>
    simp only [pipeStep, regridArray_state, dbFind, asOps]
    cases fromDict w.P di with
    | error e => rfl
    | ok gi =>
      cases fromDict w.P dO with
      | error e => rfl
      | ok go =>
        simp only [MemCache.run, List.foldl_cons, List.foldl_nil, MemCache.step]
        generalize MemCache.get w.key sizeFn (source w inv) ⟨gi, go, m⟩ s = y
        obtain ⟨⟨res, c⟩, t⟩ := y
        cases res <;> rfl
  | configure cfg =>
    simp only [pipeStep, asOps, MemCache.run, List.foldl_cons, List.foldl_nil, MemCache.step]
  | clear => simp only [pipeStep, asOps, MemCache.run, List.foldl_cons, List.foldl_nil, MemCache.step]

theorem pipeRun_eq (w : World) (sizeFn : Csr α → Nat) (inv : Inventory α) (h : List (PipeOp α)) :
    pipeRun w sizeFn inv h = MemCache.run w.key sizeFn MemCache.initial (h.flatMap (asOps w inv)) := by
  unfold pipeRun
  suffices ∀ s : PCache α, h.foldl (pipeStep w sizeFn inv) s = MemCache.run w.key sizeFn s (h.flatMap (asOps w inv)) from this _
  induction h with
  | nil => intro s; rfl
  | cons op h ih =>
    intro s
    rw [List.foldl_cons, ih, pipeStep_eq, List.flatMap_cons]
    unfold MemCache.run
    rw [List.foldl_append]

/-- The grids of the calls of a history are usable. -/
def HistoryUsable (w : World) (h : List (PipeOp α)) : Prop := ∀ x di dO m, PipeOp.regrid x di dO m ∈ h → Usable w di ∧ Usable w dO

/-- The configurations of a history are valid and leave strict mode off. -/
def HistoryValid (h : List (PipeOp α)) : Prop := ∀ cfg, PipeOp.configure cfg ∈ h → cfg.Valid ∧ cfg.strict = false

omit [Zero α] [Add α] [Mul α] in
theorem asOps_get (w : World) (inv : Inventory α) (h : List (PipeOp α)) (hu : HistoryUsable w h) (src : MemCache.Source Request (Csr α) (List Nat))
    (q : Request) (hq : MemCache.Op.get src q ∈ h.flatMap (asOps w inv)) : src = source w inv ∧ Made w q := by
  obtain ⟨op, hop, hm⟩ := List.mem_flatMap.1 hq
  cases op with
  | regrid x di dO m =>
    simp only [asOps] at hm
    cases hi : fromDict w.P di with
    | error e => rw [hi] at hm; cases hm
    | ok gi =>
      cases ho : fromDict w.P dO with
      | error e => rw [hi, ho] at hm; cases hm
      | ok go =>
        rw [hi, ho] at hm
        simp only [List.mem_singleton, MemCache.Op.get.injEq] at hm
        obtain ⟨rfl, rfl⟩ := hm
        obtain ⟨u1, u2⟩ := hu x di dO m hop
        exact ⟨rfl, di, dO, u1, u2, hi, ho⟩
  | configure cfg => simp [asOps] at hm
  | clear => simp [asOps] at hm

/-- The lookup without a cache. -/
def findPlain (w : World) (inv : Inventory α) (di dO : Dict) (m : List Char) : Except Err (Option (Csr α × List Nat)) :=
  match fromDict w.P di with
  | .error e => .error (ofSpec e)
  | .ok gi =>
    match fromDict w.P dO with
    | .error e => .error (ofSpec e)
    | .ok go => lookupPlain w inv gi go m

omit [Zero α] [Add α] [Mul α] in
theorem pair_create (w : World) (inv : Inventory α) (hc : Index.Clean w.P inv.index) (r : Request) (p : Option (Csr α) × Option (List Nat))
    (h : (source w inv).create r = .ok p) : lookupPlain w inv r.gi r.go r.method = .ok (ofPair p) := by
  rw [create_eq w inv hc] at h
  cases hl : lookupPlain w inv r.gi r.go r.method with
  | error e => rw [hl] at h; cases h
  | ok o =>
    rw [hl] at h
    cases o with
    | none => cases h; rfl
    | some q => obtain ⟨z, s⟩ := q; cases h; rfl

theorem dbFind_ok (w : World) (hw : w.Sane) (sizeFn : Csr α → Nat) (inv : Inventory α) (hc : Index.Clean w.P inv.index)
    (h : List (PipeOp α)) (hu : HistoryUsable w h) (di dO : Dict) (ui : Usable w di) (uo : Usable w dO) (m : List Char)
    (p : Option (Csr α × List Nat)) (hp : (dbFind w sizeFn inv di dO m (pipeRun w sizeFn inv h)).1 = .ok p) :
    findPlain w inv di dO m = .ok p := by
  unfold dbFind at hp
  unfold findPlain
  cases hi : fromDict w.P di with
  | error e => rw [hi] at hp; cases hp
  | ok gi =>
    cases ho : fromDict w.P dO with
    | error e => rw [hi, ho] at hp; cases hp
    | ok go =>
      rw [hi, ho] at hp
      simp only at hp ⊢
      have key := MemCache.C03_cached_result_is_uncached_result w.key sizeFn (source w inv) (h.flatMap (asOps w inv))
        (fun src q hq => (asOps_get w inv h hu src q hq).1) ⟨gi, go, m⟩
        (fun q hq hk => by rw [key_inj w hw q ⟨gi, go, m⟩ (asOps_get w inv h hu _ q hq).2 ⟨di, dO, ui, uo, hi, ho⟩ hk])
      rw [← pipeRun_eq] at key
      generalize MemCache.get w.key sizeFn (source w inv) ⟨gi, go, m⟩ (pipeRun w sizeFn inv h) = y at *
      obtain ⟨⟨res, c⟩, t⟩ := y
      cases res with
      | error e => cases hp
      | ok q => cases hp; exact pair_create w inv hc ⟨gi, go, m⟩ q (key q rfl)

theorem dbFind_same (w : World) (hw : w.Sane) (sizeFn : Csr α → Nat) (inv : Inventory α) (hc : Index.Clean w.P inv.index)
    (h : List (PipeOp α)) (hu : HistoryUsable w h) (hv : HistoryValid h)
    (di dO : Dict) (ui : Usable w di) (uo : Usable w dO) (m : List Char) :
    (dbFind w sizeFn inv di dO m (pipeRun w sizeFn inv h)).1 = findPlain w inv di dO m := by
  unfold dbFind findPlain
  cases hi : fromDict w.P di with
  | error e => rfl
  | ok gi =>
    cases ho : fromDict w.P dO with
    | error e => rfl
    | ok go =>
      simp only
      have hall : ∀ cfg, MemCache.Op.update cfg ∈ h.flatMap (asOps w inv) → cfg.Valid ∧ cfg.strict = false := by
        intro cfg hm
        obtain ⟨op, hop, hm⟩ := List.mem_flatMap.1 hm
        cases op with
        | regrid x di dO m =>
          simp only [asOps] at hm
          cases hi : fromDict w.P di with
          | error e => rw [hi] at hm; cases hm
          | ok gi =>
            cases ho : fromDict w.P dO with
            | error e => rw [hi, ho] at hm; cases hm
            | ok go => rw [hi, ho] at hm; simp at hm
        | configure c => simp [asOps] at hm; subst hm; exact hv _ hop
        | clear => simp [asOps] at hm
      have key := MemCache.C03_no_spurious_failure w.key sizeFn (source w inv) (h.flatMap (asOps w inv))
        (fun src q hq => (asOps_get w inv h hu src q hq).1) (fun cfg hm => (hall cfg hm).1) ⟨gi, go, m⟩
        (fun q hq hk => by rw [key_inj w hw q ⟨gi, go, m⟩ (asOps_get w inv h hu _ q hq).2 ⟨di, dO, ui, uo, hi, ho⟩ hk])
        (run_lenient w.key sizeFn _ (fun cfg hm => (hall cfg hm).2))
      rw [← pipeRun_eq] at key
      generalize MemCache.get w.key sizeFn (source w inv) ⟨gi, go, m⟩ (pipeRun w sizeFn inv h) = y at *
      obtain ⟨⟨res, c⟩, t⟩ := y
      simp only at key
      subst key
      rw [create_eq w inv hc]
      simp only
      cases lookupPlain w inv gi go m with
      | error e => simp only [ofCache, code_ofCode]
      | ok o =>
        cases o with
        | none => rfl
        | some q => rfl

theorem regridArray_res (w : World) (sizeFn : Csr α → Nat) (inv : Inventory α) (x : Arr α) (di dO : Dict) (m : List Char) (s : PCache α) :
    (regridArray w sizeFn inv x di dO m s).1 = match (dbFind w sizeFn inv di dO m s).1 with
      | .error e => .error e
      | .ok found => applyWeights found x dO := by
  unfold regridArray matrixBackend
  simp only [ne_eq, not_true, if_false]
  generalize dbFind w sizeFn inv di dO m s = y
  obtain ⟨y, t⟩ := y
  cases y <;> rfl

/-- C82: with valid settings and strict mode off, what was regridded before does not change the outcome of a regrid, be it values
or an exception. -/
theorem C82_history_irrelevant (w : World) (hw : w.Sane) (sizeFn : Csr α → Nat) (inv : Inventory α) (hc : Index.Clean w.P inv.index)
    (h h' : List (PipeOp α)) (hu : HistoryUsable w h) (hu' : HistoryUsable w h') (hv : HistoryValid h) (hv' : HistoryValid h')
    (x : Arr α) (di dO : Dict) (ui : Usable w di) (uo : Usable w dO) (m : List Char) :
    (regridArray w sizeFn inv x di dO m (pipeRun w sizeFn inv h)).1 = (regridArray w sizeFn inv x di dO m (pipeRun w sizeFn inv h')).1 := by
  rw [regridArray_res, regridArray_res, dbFind_same w hw sizeFn inv hc h hu hv di dO ui uo m,
    dbFind_same w hw sizeFn inv hc h' hu' hv' di dO ui uo m]

end

theorem findPlain_some (w : World) (inv : Inventory α) (di dO : Dict) (m : List Char) (z : Csr α) (shape : List Nat) :
    findPlain w inv di dO m = .ok (some (z, shape)) ↔
      ∃ gi go e, fromDict w.P di = .ok gi ∧ fromDict w.P dO = .ok go ∧ Answers w inv.index gi go (Index.methodAlias m) e ∧
        inv.file e = .ok z ∧ shapeOf e = .ok shape := by
  unfold findPlain
  cases hi : fromDict w.P di with
  | error e => simp
  | ok gi =>
    cases ho : fromDict w.P dO with
    | error e => simp
    | ok go =>
      have hi' := C31_idempotent w.P di gi hi
      have ho' := C31_idempotent w.P dO go ho
      simp only [lookupPlain, Except.ok.injEq]
      have hfirst := Index.C39_first_match w.P w.order inv.index gi.d go.d (Index.methodAlias m) gi go hi' ho'
      constructor
      · intro hl
        cases hf : Index.find w.P w.order inv.index gi.d go.d (Index.methodAlias m) with
        | error e => rw [hf] at hl; cases hl
        | ok o =>
          rw [hf] at hl
          cases o with
          | none => cases hl
          | some e =>
            refine ⟨gi, go, e, rfl, rfl, (hfirst e).1 hf, ?_⟩
            simp only [readEntry, bind, Except.bind, pure, Except.pure] at hl
            cases h1 : inv.file e with
            | error x => rw [h1] at hl; cases hl
            | ok z' =>
              rw [h1] at hl
              cases h2 : shapeOf e with
              | error x => rw [h2] at hl; cases hl
              | ok s' => rw [h2] at hl; cases hl; exact ⟨rfl, rfl⟩
      · rintro ⟨gi', go', e, rfl, rfl, ha, h1, h2⟩
        rw [(hfirst e).2 ha]
        simp only [readEntry, bind, Except.bind, pure, Except.pure, h1, h2]

section
variable {α : Type} [CommRing α]
open Finset

/-- C82: values that a regrid returns, at any point of any history of calls and configuration changes of the process, are the
product of the weights stored for the first entry of the index that answers the request with the given values. -/
theorem C82_values (w : World) (hw : w.Sane) (sizeFn : Csr α → Nat) (inv : Inventory α) (hc : Index.Clean w.P inv.index)
    (hwf : ∀ e z, inv.file e = .ok z → z.WF) (h : List (PipeOp α)) (hu : HistoryUsable w h) (x : Arr α) (di dO : Dict)
    (ui : Usable w di) (uo : Usable w dO) (m : List Char) (y : Arr α) (g : Dict)
    (hr : (regridArray w sizeFn inv x di dO m (pipeRun w sizeFn inv h)).1 = .ok (y, g)) :
    ∃ gi go e z shape, fromDict w.P di = .ok gi ∧ fromDict w.P dO = .ok go ∧ Answers w inv.index gi go (Index.methodAlias m) e ∧
      inv.file e = .ok z ∧ shapeOf e = .ok shape ∧ g = dO ∧ y.shape = shape ∧ y.Proper ∧
      ∀ idx, Inside shape idx → y.elem idx = some (∑ j ∈ range z.cols, z.weight (offset shape idx) j * x.flat.getD j 0) := by
  rw [regridArray_res] at hr
  cases hd : (dbFind w sizeFn inv di dO m (pipeRun w sizeFn inv h)).1 with
  | error e => rw [hd] at hr; cases hr
  | ok found =>
    rw [hd] at hr
    cases found with
    | none => cases hr
    | some p =>
      obtain ⟨z, shape⟩ := p
      have hf := dbFind_ok w hw sizeFn inv hc h hu di dO ui uo m _ hd
      obtain ⟨gi, go, e, h1, h2, h3, h4, h5⟩ := (findPlain_some w inv di dO m z shape).1 hf
      obtain ⟨a, b, c, d⟩ := C46_product z (hwf e z h4) shape x dO g y hr
      exact ⟨gi, go, e, z, shape, h1, h2, h3, h4, h5, c, a, b, d⟩

/-- C82: and when there is such an entry, readable, with a shape, for values of the right size, the regrid succeeds. -/
theorem C82_succeeds (w : World) (hw : w.Sane) (sizeFn : Csr α → Nat) (inv : Inventory α) (hc : Index.Clean w.P inv.index)
    (h : List (PipeOp α)) (hu : HistoryUsable w h) (hv : HistoryValid h) (x : Arr α)
    (di dO : Dict) (ui : Usable w di) (uo : Usable w dO) (m : List Char) (gi go : GS) (e : Index.Entry) (z : Csr α) (shape : List Nat)
    (hi : fromDict w.P di = .ok gi) (ho : fromDict w.P dO = .ok go) (he : Answers w inv.index gi go (Index.methodAlias m) e)
    (hz : inv.file e = .ok z) (hs : shapeOf e = .ok shape) (hx : x.flat.length = z.cols) (hp : shape.prod = z.rows) :
    ∃ y, (regridArray w sizeFn inv x di dO m (pipeRun w sizeFn inv h)).1 = .ok (y, dO) := by
  rw [regridArray_res, dbFind_same w hw sizeFn inv hc h hu hv di dO ui uo m,
    (findPlain_some w inv di dO m z shape).2 ⟨gi, go, e, hi, ho, he, hz, hs⟩]
  exact ⟨_, (apply_ok z shape x dO dO _).2 ⟨hx, hp, rfl, rfl⟩⟩

/-- C82: the shape of the result is the sequence of numbers the entry gives as the shape of its output grid. -/
theorem C82_shape (e : Index.Entry) (shape : List Nat) :
    shapeOf e = .ok shape ↔ Index.entryShape e = .ok (.list (shape.map (fun n => V.int (Int.ofNat n)))) ∨
      Index.entryShape e = .ok (.tuple (shape.map (fun n => V.int (Int.ofNat n)))) := by
  have hn : ∀ (xs : List V) (shape : List Nat), natL xs = .ok shape ↔ xs = shape.map (fun n => V.int (Int.ofNat n)) := by
    intro xs
    induction xs with
    | nil => intro shape; cases shape <;> simp [natL]
    | cons v r ih =>
      intro shape
      cases v with
      | int k =>
        cases k with
        | ofNat n =>
          rw [natL]
          cases hr : natL r with
          | error x =>
            have : ∀ shape' : List Nat, r ≠ shape'.map (fun n => V.int (Int.ofNat n)) := fun s hs => by
              have := (ih s).2 hs
              rw [hr] at this; cases this
            cases shape with
            | nil => exact ⟨fun h => (by cases h), fun h => (by cases h)⟩
            | cons a s =>
              refine ⟨fun h => (by cases h), fun h => ?_⟩
              rw [List.map_cons] at h
              exact absurd (List.cons.inj h).2 (this s)
          | ok ns =>
            have hns := (ih ns).1 hr
            cases shape with
            | nil => exact ⟨fun h => (by cases h), fun h => (by cases h)⟩
            | cons a s =>
              rw [List.map_cons]
              constructor
              · intro h
                cases h
                rw [hns]
              · intro h
                obtain ⟨h1, h2⟩ := List.cons.inj h
                have h3 := (ih s).2 h2
                rw [hr] at h3
                cases h3
                cases h1
                rfl
        | negSucc n =>
          cases shape <;> simp [natL]
      | _ => cases shape <;> simp [natL]
  unfold shapeOf
  cases h : Index.entryShape e with
  | error x => simp
  | ok v =>
    cases v with
    | list xs => simpa using hn xs shape
    | tuple xs => simpa using hn xs shape
    | _ => simp

end

end Verif.Regrid
