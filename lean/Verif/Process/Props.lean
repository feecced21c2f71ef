import Verif.Process.Sim
import Verif.MemCache.Props
import Verif.DiskCache.PolicyProps

/-! Properties of a process: the configuration in force (C100), starting again (C101). -/

namespace Verif.MemCache
variable {K W S : Type} [LinearOrder K]

/-- What an `update` that returns leaves. -/
theorem update_ok (cfg : Cfg) (s : Cache K W S) (h : (update cfg s).1 = none) :
    ∃ v p, cfg.maxMem = some v ∧ cfg.policy = some p ∧ (update cfg s).2.policy = p ∧
      (Limited p → (update cfg s).2.maxMem = v ∧ (update cfg s).2.strict = cfg.strict) := by
  unfold update updateAssign at *
  cases hv : cfg.maxMem with
  | none => rw [hv] at h; cases h
  | some v =>
    cases hp : cfg.policy with
    | none => rw [hv, hp] at h; cases h
    | some p =>
      refine ⟨v, p, rfl, rfl, ?_⟩
      rw [hv, hp] at h
      simp only at h ⊢
      have fin : ∀ b (s2 : Cache K W S), s2.policy = p → (Limited p → s2.maxMem = v ∧ s2.strict = cfg.strict) →
          (updateFinish (.ok b) s2).2.policy = p ∧ (Limited p → (updateFinish (.ok b) s2).2.maxMem = v ∧ (updateFinish (.ok b) s2).2.strict = cfg.strict) := by
        intro b s2 e1 e2
        cases b with
        | false => exact ⟨e1, e2⟩
        | true =>
          refine ⟨by show (reduce none s2).2.policy = p; rw [reduce_policy', e1], fun hl => ?_⟩
          obtain ⟨_, e3, e4⟩ := reduce_cfg none s2 (by rw [e1]; exact hl)
          show (reduce none s2).2.maxMem = v ∧ (reduce none s2).2.strict = cfg.strict
          rw [e3, e4]; exact e2 hl
      by_cases hsame : s.policy = p
      · rw [if_pos hsame]
        exact fin _ _ hsame (fun _ => ⟨rfl, rfl⟩)
      · rw [if_neg hsame] at h ⊢
        cases p with
        | off => exact fin true _ rfl (fun hl => by rcases hl with hl | hl <;> cases hl)
        | unlimited => exact fin true _ rfl (fun hl => by rcases hl with hl | hl <;> cases hl)
        | lru =>
          simp only [check] at h ⊢
          cases v with
          | none => cases h
          | some m =>
            simp only at h ⊢
            by_cases hm : m ≤ 0
            · rw [if_pos hm] at h; cases h
            · rw [if_neg hm]
              exact fin true _ rfl (fun _ => ⟨rfl, rfl⟩)
        | largest =>
          simp only [check] at h ⊢
          cases v with
          | none => cases h
          | some m =>
            simp only at h ⊢
            by_cases hm : m ≤ 0
            · rw [if_pos hm] at h; cases h
            · rw [if_neg hm]
              exact fin true _ rfl (fun _ => ⟨rfl, rfl⟩)

/-- A cache with a usable limit takes exactly the valid configurations. -/
theorem update_ok_iff (cfg : Cfg) (s : Cache K W S) (hacc : Acc s) (hpos : Limited s.policy → ∃ m, s.maxMem = some m ∧ 0 < m) :
    (update cfg s).1 = none ↔ cfg.Valid := by
  constructor
  · intro h
    have hk := h
    unfold update updateAssign at h
    cases hv : cfg.maxMem with
    | none => rw [hv] at h; cases h
    | some v =>
      cases hp : cfg.policy with
      | none => rw [hv, hp] at h; cases h
      | some p =>
        refine ⟨v, p, hv, hp, fun hl => ?_⟩
        rw [hv, hp] at h
        simp only at h
        by_cases hsame : s.policy = p
        · rw [if_pos hsame] at h
          by_cases hm : s.maxMem = v
          · rw [← hm]; exact hpos (by rw [hsame]; exact hl)
          · simp only [ne_eq, hm, not_false_eq_true, decide_true, Bool.true_or, updateFinish] at h
            unfold reduce at h
            rcases hl with rfl | rfl
            all_goals
              simp only [hsame, check] at h
              cases v with
              | none => cases h
              | some m =>
                simp only at h
                by_cases hm' : m ≤ 0
                · rw [if_pos hm'] at h; cases h
                · exact ⟨m, rfl, by omega⟩
        · rw [if_neg hsame] at h
          rcases hl with rfl | rfl
          all_goals
            simp only [check] at h
            cases v with
            | none => cases h
            | some m =>
              simp only at h
              by_cases hm' : m ≤ 0
              · rw [if_pos hm'] at h; cases h
              · exact ⟨m, rfl, by omega⟩
  · intro hv
    have h := update_cases cfg s hacc
    generalize update cfg s = r at h
    cases h with
    | same e s' hi hc hh hm hoff hval => exact (hval hv).1
    | off => rfl
    | evict => rfl

end Verif.MemCache

namespace Verif.Process
open Verif.Config (Err V Conf Env Req Act File Raises)
open Verif.MemCache (Limited Acc Bound)
open Verif.DiskCache.Policy (Follows Cached)

variable {Q K W S : Type} [LinearOrder K]

/-! ## Specification -/

/-- The documented names of the policies of the in-memory cache. -/
def nameOf : MemCache.Policy → List Char
  | .off => "off".toList
  | .unlimited => "unlimited".toList
  | .lru => "lru".toList
  | .largest => "largest".toList

/-- A limit as `config.get` reports it. -/
def limitV : Option Int → V
  | none => .none
  | some n => .int n

/-- The in-memory cache does what `config.get` (`v`) says. -/
structure MemFollows (P : Config.Py) (v : String → Except Err V) (m : MemCache.Cache K W S) : Prop where
  policy : v "weights-memory-cache-policy" = .ok (.str (nameOf m.policy))
  limit : ∃ n, v "maximum-weights-memory-cache-size" = .ok (limitV n) ∧ (Limited m.policy → m.maxMem = n)
  strict : Limited m.policy → ∀ x, v "weights-memory-cache-strict-mode" = .ok x → m.strict = Config.truthy P x

/-- Both caches do. -/
structure InForce (X : Ext) (s : St K W S) : Prop where
  memory : MemFollows X.P (now X.P s.cfg) s.mem
  disk : Follows X.expand (now X.P s.cfg) s.disk

/-- Programs that only use the caches. -/
def Prog.uses : Prog Q W S → Prop
  | .lookup _ _ => True
  | .clear => True
  | .use => True
  | .directory => True
  | .skip => True
  | .seq p q => p.uses ∧ q.uses
  | _ => False

/-! ## Lemmas -/

theorem policyOf_some {x : Except Err V} {p : MemCache.Policy} (h : policyOf x = some p) : x = .ok (.str (nameOf p)) := by
  unfold policyOf at h
  split at h
  · rename_i t
    split_ifs at h with h1 h2 h3 h4
    · cases h; subst h1; rfl
    · cases h; subst h2; rfl
    · cases h; subst h3; rfl
    · cases h; subst h4; rfl
  · cases h

theorem limitOf_some {x : Except Err V} {v : Option Int} (h : limitOf x = some v) : x = .ok (limitV v) := by
  unfold limitOf at h
  split at h <;> cases h <;> rfl

theorem update_follows (P : Config.Py) (c : Config.St) (m : MemCache.Cache K W S) (h : (MemCache.update (memCfg P c) m).1 = none) :
    MemFollows P (now P c) (MemCache.update (memCfg P c) m).2 := by
  obtain ⟨v, p, h1, h2, h3, h4⟩ := MemCache.update_ok _ m h
  refine ⟨?_, ⟨v, limitOf_some h1, fun hl => ?_⟩, fun hl x hx => ?_⟩
  · rw [h3]; exact policyOf_some h2
  · rw [h3] at hl; exact (h4 hl).1
  · rw [h3] at hl; rw [(h4 hl).2]; show flagOf P _ = _; rw [hx]; rfl

/-- What always holds of a process. -/
structure Inv (X : Ext) (s : St K W S) : Prop where
  cached : Cached X.expand s.disk
  disk : 0 ∈ s.cfg.callbacks
  memory : 1 ∈ s.cfg.callbacks
  acc : Acc s.mem
  bound : s.refusals = 0 → Bound s.mem

omit [LinearOrder K] in
theorem Inv.cfg {X : Ext} {s : St K W S} (h : Inv X s) {c : Config.St} (hc : s.cfg.callbacks ⊆ c.callbacks) : Inv X { s with cfg := c } :=
  ⟨h.cached, hc h.disk, hc h.memory, h.acc, h.bound⟩

omit [LinearOrder K] in
theorem bound_pos {m : MemCache.Cache K W S} (h : Bound m) : Limited m.policy → ∃ x, m.maxMem = some x ∧ 0 < x := fun hl => by
  obtain ⟨x, h1, h2, _⟩ := h hl
  exact ⟨x, h1, h2⟩

/-- An observer: the cases. -/
theorem call_disk (X : Ext) (s : St K W S) : call X 0 s =
    (match (DiskCache.Policy.configChanged X.expand (now X.P s.cfg) (X.broken s.cfg) s.disk).1 with | .ok _ => false | .error _ => true,
      { s with disk := (DiskCache.Policy.configChanged X.expand (now X.P s.cfg) (X.broken s.cfg) s.disk).2 }) := by
  unfold call
  rw [if_pos rfl]
  split
  · rename_i h; rw [h]
  · rename_i h; rw [h]

theorem call_mem (X : Ext) (s : St K W S) : call X 1 s = ((MemCache.update (memCfg X.P s.cfg) s.mem).1.isSome,
    { s with mem := (MemCache.update (memCfg X.P s.cfg) s.mem).2, refusals := s.refusals + if (MemCache.update (memCfg X.P s.cfg) s.mem).1 = none then 0 else 1 }) := by
  unfold call
  rw [if_neg (by decide), if_pos rfl]
  generalize MemCache.update (memCfg X.P s.cfg) s.mem = x
  obtain ⟨e, m⟩ := x
  cases e <;> simp

theorem call_user (X : Ext) (o : Nat) (s : St K W S) (h0 : o ≠ 0) (h1 : o ≠ 1) : call X o s = (X.user o s.cfg, s) := by
  unfold call
  rw [if_neg h0, if_neg h1]

theorem inv_call {X : Ext} {s : St K W S} (h : Inv X s) (o : Nat) : Inv X (call X o s).2 := by
  by_cases h0 : o = 0
  · subst h0
    rw [call_disk]
    exact ⟨DiskCache.Policy.cached_changed h.cached, h.disk, h.memory, h.acc, h.bound⟩
  · by_cases h1 : o = 1
    · subst h1
      rw [call_mem]
      refine ⟨h.cached, h.disk, h.memory, MemCache.update_acc _ _ h.acc, ?_⟩
      intro hr
      simp only at hr
      have hr0 : s.refusals = 0 := by omega
      have hok : (MemCache.update (memCfg X.P s.cfg) s.mem).1 = none := by
        by_contra hne; rw [if_neg hne] at hr; omega
      exact MemCache.update_bound _ _ h.acc (h.bound hr0) ((MemCache.update_ok_iff _ _ h.acc (bound_pos (h.bound hr0))).1 hok)
    · rw [call_user X o s h0 h1]; exact h

theorem inv_notifyL {X : Ext} (os : List Nat) : ∀ {s : St K W S}, Inv X s → Inv X (notifyL X os s).2 := by
  induction os with
  | nil => intro s h; exact h
  | cons o os ih =>
    intro s h
    have h1 : Inv X ((call X o s).2.noted o) := (inv_call h o).cfg (c := { (call X o s).2.cfg with log := _ }) (fun _ hx => hx)
    rw [notifyL_cons]
    split
    · exact h1
    · exact ih h1

theorem inv_changed {X : Ext} {s : St K W S} (h : Inv X s) : Inv X (changed X s).2 := by
  refine inv_notifyL _ (h.cfg ?_)
  split
  · rw [(Config.saveCfg_core _ _ _).callbacks]; exact fun _ hx => hx
  · exact fun _ hx => hx

theorem changedN_succ (X : Ext) (n : Nat) (s : St K W S) :
    changedN X (n + 1) s = if (changed X s).1 = none then changedN X n (changed X s).2 else changed X s := by
  show (match changed X s with | (some e, s) => (some e, s) | (none, s) => changedN X n s) = _
  generalize changed X s = x
  obtain ⟨b, s'⟩ := x
  cases b <;> simp

theorem inv_changedN {X : Ext} (n : Nat) : ∀ {s : St K W S}, Inv X s → Inv X (changedN X n s).2 := by
  induction n with
  | zero => intro s h; exact h
  | succ n ih =>
    intro s h
    rw [changedN_succ]
    split
    · exact ih (inv_changed h)
    · exact inv_changed h

omit [LinearOrder K] in
theorem inv_setTop {X : Ext} {s : St K W S} (h : Inv X s) (c : Conf) : Inv X { s with cfg := s.cfg.setTop c } :=
  h.cfg (by rw [(Config.setTop_env _ _).2.1]; exact fun _ hx => hx)

theorem inv_act {X : Ext} {s : St K W S} (h : Inv X s) (a : Act) : Inv X (act X a s).2 := by
  cases a with
  | set r =>
    show Inv X (set X r s).2
    unfold set
    split
    · exact inv_setTop h _
    · exact inv_changedN _ (inv_setTop h _)
  | reset n =>
    show Inv X (reset X n s).2
    unfold reset
    split
    · exact inv_changed (inv_setTop h _)
    · split
      · exact h
      · exact inv_changed (inv_setTop h _)
  | get n =>
    refine h.cfg ?_
    show s.cfg.callbacks ⊆ (match Config.getConf X.P s.cfg.env s.cfg.top.conf n with
        | .ok v => (none, { s.cfg with log := s.cfg.log ++ [.got n v] }) | .error e => (some e, s.cfg) : Option Err × Config.St).2.callbacks
    split <;> exact fun _ hx => hx
  | autosave b => exact h.cfg (fun _ hx => hx)
  | onChange o => exact h.cfg (fun _ hx => List.mem_append_left _ hx)
  | setEnv n v => exact h.cfg (fun _ hx => hx)

theorem inv_run {X : Ext} {M : Keys Q K W} (p : Prog Q W S) : ∀ {s : St K W S}, Inv X s → Inv X (run X M p s).2 := by
  induction p with
  | skip => intro s h; exact h
  | act a => intro s h; exact inv_act h a
  | lookup src q =>
    intro s h
    exact ⟨h.cached, h.disk, h.memory, MemCache.get_acc _ _ _ _ _ h.acc, fun hr => MemCache.get_bound _ _ _ _ _ h.acc (h.bound hr)⟩
  | clear =>
    intro s h
    refine ⟨h.cached, h.disk, h.memory, Acc.clear _, fun hr hl => ?_⟩
    obtain ⟨m, h1, h2, _⟩ := h.bound hr hl
    exact ⟨m, h1, h2, h2⟩
  | use => intro s h; exact ⟨DiskCache.Policy.cached_make h.cached, h.disk, h.memory, h.acc, h.bound⟩
  | directory => intro s h; exact ⟨DiskCache.Policy.cached_directory h.cached, h.disk, h.memory, h.acc, h.bound⟩
  | raise => intro s h; exact h
  | seq p q ihp ihq =>
    intro s h
    rw [run_seq]
    split
    · exact ihq (ihp h)
    · exact ihp h
  | catch_ p q ihp ihq =>
    intro s h
    rw [run_catch]
    split
    · exact ihp h
    · exact ihq (ihp h)
  | temp r y b ih =>
    intro s h
    have hc := (Config.makeTemp_core X.P r y s.cfg).callbacks
    rw [run_temp]
    have hpush : Inv X (s.pushed X r y) := h.cfg (c := { (Config.makeTemp X.P r y s.cfg).2.2 with stack := _ })
      (by show _ ⊆ (Config.makeTemp X.P r y s.cfg).2.2.callbacks; rw [hc]; exact fun _ hx => hx)
    have h1 : Inv X (notify X (s.pushed X r y)).2 := inv_notifyL _ hpush
    have h3 : Inv X (notify X (run X M b (notify X (s.pushed X r y)).2).2.popped).2 :=
      inv_notifyL _ ((ih h1).cfg (c := { (run X M b (notify X (s.pushed X r y)).2).2.cfg with stack := _ }) (fun _ hx => hx))
    split
    · exact h.cfg (by rw [hc]; exact fun _ hx => hx)
    · split
      · exact h1.cfg (c := { (notify X (s.pushed X r y)).2.cfg with failedEntries := _ }) (fun _ hx => hx)
      · split
        · exact h3
        · exact h3

theorem inv_import {X : Ext} {path old : String} {env : Env} {files : String → Option File} {os : DiskCache.Policy.Os} {s : St K W S}
    (h : importPkg X path old env files os = .ok s) : Inv X s ∧ MemFollows X.P (now X.P s.cfg) s.mem ∧
      s.cfg = registered X.P path old env files := by
  have hacc : Acc (MemCache.initial : MemCache.Cache K W S) := by constructor <;> simp [MemCache.initial, MemCache.total]
  have hb : Bound (MemCache.initial : MemCache.Cache K W S) := fun _ => ⟨300 * 1024 * 1024, rfl, by decide, by show (0:Int) < _; decide⟩
  unfold importPkg at h
  have hf := update_follows X.P (registered X.P path old env files) (MemCache.initial : MemCache.Cache K W S)
  have ha := MemCache.update_acc (memCfg X.P (registered X.P path old env files)) (MemCache.initial : MemCache.Cache K W S) hacc
  have hi := MemCache.update_ok_iff (memCfg X.P (registered X.P path old env files)) (MemCache.initial : MemCache.Cache K W S) hacc (bound_pos hb)
  have hb' := MemCache.update_bound (memCfg X.P (registered X.P path old env files)) (MemCache.initial : MemCache.Cache K W S) hacc hb
  generalize MemCache.update (memCfg X.P (registered X.P path old env files)) (MemCache.initial : MemCache.Cache K W S) = x at *
  obtain ⟨e, m⟩ := x
  cases e with
  | some e => cases h
  | none =>
    cases h
    exact ⟨⟨DiskCache.Policy.cached_init _ _, by simp [registered], by simp [registered], ha, fun _ => hb' (hi.1 rfl)⟩, hf rfl, rfl⟩

/-- A notification that succeeds brings both caches in line. -/
theorem notifyL_follows {X : Ext} (os : List Nat) : ∀ {s s' : St K W S}, Inv X s → notifyL X os s = (none, s') →
    now X.P s'.cfg = now X.P s.cfg ∧
    (0 ∈ os ∨ Follows X.expand (now X.P s.cfg) s.disk → Follows X.expand (now X.P s'.cfg) s'.disk) ∧
    (1 ∈ os ∨ MemFollows X.P (now X.P s.cfg) s.mem → MemFollows X.P (now X.P s'.cfg) s'.mem) := by
  induction os with
  | nil => intro s s' hi h; cases h; simp
  | cons o os ih =>
    intro s s' hi h
    rw [notifyL_cons] at h
    have hcfg := call_cfg X o s
    have hn : now X.P ((call X o s).2.noted o).cfg = now X.P s.cfg := by
      unfold St.noted; rw [hcfg]; rfl
    cases hb : (call X o s).1 with
    | true => rw [hb, if_pos rfl] at h; cases h
    | false =>
      rw [hb, if_neg (by simp)] at h
      have hi' : Inv X ((call X o s).2.noted o) := (inv_call hi o).cfg (c := { (call X o s).2.cfg with log := _ }) (fun _ hx => hx)
      obtain ⟨i1, i2, i3⟩ := ih hi' h
      refine ⟨i1.trans hn, fun hd => i2 ?_, fun hm => i3 ?_⟩
      · rw [hn]
        by_cases ho : o = 0
        · right
          subst ho
          rw [call_disk] at hb ⊢
          refine DiskCache.Policy.follows_changed hi.cached ?_
          generalize (DiskCache.Policy.configChanged X.expand (now X.P s.cfg) (X.broken s.cfg) s.disk).1 = e at hb
          cases e with
          | ok u => rfl
          | error e => simp at hb
        · rcases hd with hd | hd
          · rcases List.mem_cons.1 hd with e | e
            · exact absurd e.symm ho
            · exact Or.inl e
          · right
            by_cases h1 : o = 1
            · subst h1; rw [call_mem]; exact hd
            · rw [call_user X o s ho h1]; exact hd
      · rw [hn]
        by_cases ho : o = 1
        · right
          subst ho
          rw [call_mem] at hb ⊢
          exact update_follows X.P s.cfg s.mem (by simpa using hb)
        · rcases hm with hm | hm
          · rcases List.mem_cons.1 hm with e | e
            · exact absurd e.symm ho
            · exact Or.inl e
          · right
            by_cases h0 : o = 0
            · subst h0; rw [call_disk]; exact hm
            · rw [call_user X o s h0 ho]; exact hm

theorem notify_inForce {X : Ext} {s s' : St K W S} (hi : Inv X s) (h : notify X s = (none, s')) :
    InForce X s' ∧ now X.P s'.cfg = now X.P s.cfg := by
  obtain ⟨h1, h2, h3⟩ := notifyL_follows _ hi h
  exact ⟨⟨h3 (Or.inl hi.memory), h2 (Or.inl hi.disk)⟩, h1⟩

theorem changed_inForce {X : Ext} {s s' : St K W S} (hi : Inv X s) (h : changed X s = (none, s')) : InForce X s' := by
  refine (notify_inForce (hi.cfg ?_) h).1
  split
  · rw [(Config.saveCfg_core _ _ _).callbacks]; exact fun _ hx => hx
  · exact fun _ hx => hx

theorem changedN_inForce {X : Ext} (n : Nat) : ∀ {s s' : St K W S}, Inv X s → changedN X (n + 1) s = (none, s') → InForce X s' := by
  induction n with
  | zero =>
    intro s s' hi h
    rw [changedN_succ] at h
    split at h
    · rename_i h0
      cases h
      exact changed_inForce hi (Prod.ext h0 rfl)
    · exact changed_inForce hi h
  | succ n ih =>
    intro s s' hi h
    rw [changedN_succ] at h
    split at h
    · exact ih (inv_changed hi) h
    · exact changed_inForce hi h

theorem applyReq_changes {P : Config.Py} {c c' : Conf} {r : Req} {n : Nat} (h : Config.applyReq P c r = (none, c', n)) : ∃ k, n = k + 1 := by
  unfold Config.applyReq at h
  split at h
  · cases h
  · split at h
    · cases h
    · cases h; exact ⟨1, rfl⟩
  · split at h
    · cases h
    · cases h; exact ⟨0, rfl⟩
  · split at h
    · cases h
    · cases h; exact ⟨0, rfl⟩

/-- `config.set` or `config.reset`. -/
def IsChange (a : Act) : Prop := (∃ r, a = .set r) ∨ ∃ n, a = .reset n

theorem change_inForce {X : Ext} {s s' : St K W S} (hi : Inv X s) {a : Act} (ha : IsChange a) (h : act X a s = (none, s')) : InForce X s' := by
  rcases ha with ⟨r, rfl⟩ | ⟨n, rfl⟩
  · have h : set X r s = (none, s') := h
    unfold set at h
    split at h
    · cases h
    · rename_i hr
      obtain ⟨k, rfl⟩ := applyReq_changes hr
      exact changedN_inForce k (inv_setTop hi _) h
  · have h : reset X n s = (none, s') := h
    unfold reset at h
    split at h
    · exact changed_inForce (inv_setTop hi _) h
    · split at h
      · cases h
      · exact changed_inForce (inv_setTop hi _) h

/-- A refusal is not an exception of the program. -/
theorem setOne_user (P : Config.Py) (c : Conf) (name : String) (args : List V) (kw : Bool) :
    Config.setOne P c name args kw ≠ .error .user := by
  intro h
  cases hr : Config.ruleOf name with
  | none => rw [Config.setOne_unknown P c name hr] at h; cases h
  | some r =>
    obtain ⟨o, ho, _⟩ := Config.option_rule P name r hr
    match args, kw with
    | [v], false =>
      have := Config.setOne_rule P c name r hr v
      cases ha : r.apply P v with
      | none => rw [ha] at this; simp only at this; rw [this] at h; cases h
      | some w => rw [ha] at this; obtain ⟨x, h1, _⟩ := this; rw [h1] at h; cases h
    | [v], true => unfold Config.setOne at h; rw [ho] at h; cases h
    | [], kw => unfold Config.setOne at h; rw [ho] at h; cases h
    | _ :: _ :: _, kw => unfold Config.setOne at h; rw [ho] at h; cases h

theorem setMany_user (P : Config.Py) (l : List (String × V)) : ∀ c : Conf, (Config.setMany P c l).1 ≠ some .user := by
  induction l with
  | nil => intro c h; cases h
  | cons kv l ih =>
    intro c h
    obtain ⟨k, v⟩ := kv
    unfold Config.setMany at h
    split at h
    · rename_i e he
      rw [Option.some.injEq] at h
      subst h
      exact setOne_user P c k [v] false he
    · exact ih _ h

theorem applyReq_user (P : Config.Py) (c : Conf) (r : Req) : (Config.applyReq P c r).1 ≠ some .user := by
  unfold Config.applyReq
  split
  · simp
  · rename_i kvs _
    have := setMany_user P (kvs.map (fun p => (Config.dashed p.1, p.2))) c
    split
    · rename_i h; rw [h] at this; exact this
    · simp
  · rename_i kvs
    have := setMany_user P kvs c
    split
    · rename_i h; rw [h] at this; exact this
    · simp
  · rename_i name args kw
    have := setOne_user P c name args kw
    split
    · rename_i e h; rw [h] at this; intro he; apply this; cases he; rfl
    · simp

theorem makeTemp_user (P : Config.Py) (r : Option Req) (y : Option String) (c : Config.St) : (Config.makeTemp P r y c).1 ≠ some .user := by
  unfold Config.makeTemp
  split
  · simp
  · rename_i r
    have := applyReq_user P c.top.conf r
    split
    · rename_i h; rw [h] at this; exact this
    · simp

/-! ## C100 -/

/-- C100: after any program in a process that imported the package, when `config.set` or `config.reset` returns, both caches do what
`config.get` reports. -/
theorem C100_change (X : Ext) (M : Keys Q K W) (path old : String) (env : Env) (files : String → Option File) (os : DiskCache.Policy.Os)
    (s0 : St K W S) (h0 : importPkg X path old env files os = .ok s0) (p : Prog Q W S) (a : Act) (ha : IsChange a) (s' : St K W S)
    (h : act X a (run X M p s0).2 = (none, s')) : InForce X s' :=
  change_inForce (inv_run p (inv_import h0).1) ha h

/-- C100, temporary configurations: in a block that was entered both caches follow the configuration of the block from its start; when
the block is left, normally or by an exception of the program, they follow the configuration outside. -/
theorem C100_temporary (X : Ext) (M : Keys Q K W) (path old : String) (env : Env) (files : String → Option File) (os : DiskCache.Policy.Os)
    (s0 : St K W S) (h0 : importPkg X path old env files os = .ok s0) (p : Prog Q W S) (r : Option Req) (y : Option String) (b : Prog Q W S)
    (e : Option Err) (he : e = none ∨ e = some .user) (s' : St K W S) (h : run X M (.temp r y b) (run X M p s0).2 = (e, s')) :
    InForce X s' ∧ ∃ s1 s2, InForce X s1 ∧ now X.P s1.cfg = Config.getConf X.P (run X M p s0).2.cfg.env
        (Config.makeTemp X.P r y (run X M p s0).2.cfg).2.1.conf ∧ run X M b s1 = (e, s2) := by
  have hi := inv_run (M := M) p (inv_import h0).1
  generalize (run X M p s0).2 = s at *
  have hc := Config.makeTemp_core X.P r y s.cfg
  rw [run_temp] at h
  have hpush : Inv X (s.pushed X r y) := hi.cfg (c := { (Config.makeTemp X.P r y s.cfg).2.2 with stack := _ })
    (by show _ ⊆ (Config.makeTemp X.P r y s.cfg).2.2.callbacks; rw [hc.callbacks]; exact fun _ hx => hx)
  have hnow : now X.P (s.pushed X r y).cfg = Config.getConf X.P s.cfg.env (Config.makeTemp X.P r y s.cfg).2.1.conf := by
    show Config.getConf X.P (Config.makeTemp X.P r y s.cfg).2.2.env _ = _
    rw [hc.env]; rfl
  have nuser : ∀ t : St K W S, (notify X t).1 ≠ some .user := by
    intro t ht
    obtain ⟨_, f, hf⟩ := notify_sim X t
    have := hf f (fun _ _ _ => rfl)
    have h2 := Config.notifyL_err (table f) t.cfg.callbacks t.cfg .user (by
      show (Config.notify (table f) t.cfg).1 = _
      rw [show Config.notify (table f) t.cfg = _ from this]; exact ht)
    cases h2
  split at h
  · rename_i hne
    exfalso
    have h1 : (Config.makeTemp X.P r y s.cfg).1 = e := by rw [Prod.mk.injEq] at h; exact h.1
    rcases he with rfl | rfl
    · exact hne h1
    · exact makeTemp_user X.P r y s.cfg h1
  · split at h
    · rename_i hne
      exfalso
      have h1 : (notify X (s.pushed X r y)).1 = e := by rw [Prod.mk.injEq] at h; exact h.1
      rcases he with rfl | rfl
      · exact hne h1
      · exact nuser _ h1
    · rename_i hne
      have hok : notify X (s.pushed X r y) = (none, (notify X (s.pushed X r y)).2) := Prod.ext (by simpa using hne) rfl
      obtain ⟨f1, n1⟩ := notify_inForce hpush hok
      have i1 : Inv X (notify X (s.pushed X r y)).2 := inv_notifyL _ hpush
      generalize (notify X (s.pushed X r y)).2 = s1 at *
      have i2 := inv_run (M := M) b i1
      split at h
      · rename_i hne'
        exfalso
        have h1 : (notify X (run X M b s1).2.popped).1 = e := by rw [h]
        rcases he with rfl | rfl
        · exact hne' h1
        · exact nuser _ h1
      · rename_i hne'
        have h1 : (run X M b s1).1 = e := by rw [Prod.mk.injEq] at h; exact h.1
        have h2 : (notify X (run X M b s1).2.popped).2 = s' := by rw [Prod.mk.injEq] at h; exact h.2
        refine ⟨(notify_inForce (s := (run X M b s1).2.popped) (i2.cfg (c := { (run X M b s1).2.cfg with stack := _ }) (fun _ hx => hx))
          (Prod.ext (by simpa using hne') h2)).1, s1, (run X M b s1).2, f1, n1.trans hnow, Prod.ext h1 rfl⟩

theorem follows_directory {expand : List Char → List Char} {v : String → Except Err V} {d : DiskCache.Policy.CacheSt} {b : Bool}
    (h : Follows expand v d) : Follows expand v (DiskCache.Policy.cacheDirectory expand v b d).2 := by
  obtain ⟨p, h1, h2, h3⟩ := h
  cases hm : p.kind.managed with
  | true =>
    obtain ⟨x, h4, _⟩ := (h3 hm).2.2 b
    rw [h4]
    exact ⟨p, h1, h2, h3⟩
  | false =>
    rcases DiskCache.Policy.cacheDirectory_cases expand v b d with ⟨e, he⟩ | ⟨q, x, q', o', hq, hd, he⟩
    · rw [he, DiskCache.Policy.makePolicy_some h1]
      exact ⟨p, h1, h2, h3⟩
    · rw [DiskCache.Policy.makePolicy_some h1] at hq
      have hpq : p = q := by rw [h1] at hq; exact Option.some.inj hq
      subst hpq
      have hk : q'.kind = p.kind := by
        unfold DiskCache.Policy.Policy.directory at hd
        split at hd
        · cases hd; rfl
        · split at hd
          · cases hd; rfl
          · cases hd
        · split at hd
          · cases hd; rfl
          · split at hd
            · cases hd
            · split at hd
              · cases hd
              · cases hd; rfl
      rw [he]
      exact ⟨q', rfl, by rw [hk]; exact h2, fun h => by rw [hk, hm] at h; cases h⟩

theorem uses_inForce {X : Ext} {M : Keys Q K W} (q : Prog Q W S) : ∀ {s : St K W S}, q.uses → Inv X s → InForce X s →
    InForce X (run X M q s).2 ∧ (run X M q s).2.cfg = s.cfg := by
  induction q with
  | skip => intro s _ _ h; exact ⟨h, rfl⟩
  | act a => intro s hq; exact hq.elim
  | lookup src q =>
    intro s _ hi h
    obtain ⟨g1, g2⟩ := MemCache.get_policy M.key M.size src q s.mem hi.acc
    have g3 := MemCache.get_strict M.key M.size src q s.mem hi.acc
    have hne : ∀ m : MemCache.Policy, Limited m → m ≠ .unlimited := by rintro m (rfl | rfl) <;> simp
    refine ⟨⟨⟨?_, ?_, ?_⟩, h.disk⟩, rfl⟩
    · show now X.P s.cfg _ = _
      rw [h.memory.policy, ← g1]; rfl
    · obtain ⟨n, h1, h2⟩ := h.memory.limit
      refine ⟨n, h1, fun hl => ?_⟩
      have hl : Limited s.mem.policy := by rw [← g1]; exact hl
      show (MemCache.get M.key M.size src q s.mem).2.maxMem = n
      rw [g2 (hne _ hl)]; exact h2 hl
    · intro hl x hx
      have hl : Limited s.mem.policy := by rw [← g1]; exact hl
      show (MemCache.get M.key M.size src q s.mem).2.strict = _
      rw [g3 (hne _ hl)]; exact h.memory.strict hl x hx
  | clear => intro s _ _ h; exact ⟨⟨⟨h.memory.policy, h.memory.limit, h.memory.strict⟩, h.disk⟩, rfl⟩
  | use =>
    intro s _ _ h
    obtain ⟨p, hp, _⟩ := h.disk
    refine ⟨⟨h.memory, ?_⟩, rfl⟩
    show Follows X.expand (now X.P s.cfg) (DiskCache.Policy.makePolicy X.expand (now X.P s.cfg) (X.broken s.cfg) s.disk).2
    rw [DiskCache.Policy.makePolicy_some hp]
    exact h.disk
  | directory => intro s _ _ h; exact ⟨⟨h.memory, follows_directory h.disk⟩, rfl⟩
  | raise => intro s hq; exact hq.elim
  | seq p q ihp ihq =>
    intro s hq hi h
    obtain ⟨h1, h2⟩ := ihp hq.1 hi h
    rw [run_seq]
    split
    · obtain ⟨h3, h4⟩ := ihq hq.2 (inv_run p hi) h1
      exact ⟨h3, h4.trans h2⟩
    · exact ⟨h1, h2⟩
  | catch_ p q => intro s hq; exact hq.elim
  | temp r y b => intro s hq; exact hq.elim

/-- C100: and it stays so as long as the caches are only used. -/
theorem C100_kept (X : Ext) (M : Keys Q K W) (path old : String) (env : Env) (files : String → Option File) (os : DiskCache.Policy.Os)
    (s0 : St K W S) (h0 : importPkg X path old env files os = .ok s0) (p : Prog Q W S) (a : Act) (ha : IsChange a) (s' : St K W S)
    (h : act X a (run X M p s0).2 = (none, s')) (q : Prog Q W S) (hq : q.uses) : InForce X (run X M q s').2 := by
  have hi := inv_act (inv_run (M := M) p (inv_import h0).1) a
  rw [h] at hi
  exact (uses_inForce q hq hi (C100_change X M path old env files os s0 h0 p a ha s' h)).1

/-- C100, the limit: if no change was ever refused by the in-memory cache, what it holds is below the limit `config.get` reports. -/
theorem C100_below_limit (X : Ext) (M : Keys Q K W) (path old : String) (env : Env) (files : String → Option File) (os : DiskCache.Policy.Os)
    (s0 : St K W S) (h0 : importPkg X path old env files os = .ok s0) (p : Prog Q W S) (a : Act) (ha : IsChange a) (s' : St K W S)
    (h : act X a (run X M p s0).2 = (none, s')) (q : Prog Q W S) (hq : q.uses) (hr : (run X M q s').2.refusals = 0)
    (hl : Limited (run X M q s').2.mem.policy) :
    ∃ m, now X.P (run X M q s').2.cfg "maximum-weights-memory-cache-size" = .ok (.int m) ∧ MemCache.total (run X M q s').2.mem.items < m := by
  have hi := inv_act (inv_run (M := M) p (inv_import h0).1) a
  rw [h] at hi
  have hf := (uses_inForce (M := M) q hq hi (C100_change X M path old env files os s0 h0 p a ha s' h)).1
  have hi' := inv_run (M := M) q hi
  generalize (run X M q s').2 = s at *
  obtain ⟨m, h1, h2, h3⟩ := hi'.bound hr hl
  obtain ⟨n, h4, h5⟩ := hf.memory.limit
  refine ⟨m, ?_, by rw [← hi'.acc.2]; exact h3⟩
  rw [h4, ← h5 hl, h1]; rfl

/-- The in-memory cache follows the configuration from the import on. -/
theorem C100_import (X : Ext) (path old : String) (env : Env) (files : String → Option File) (os : DiskCache.Policy.Os)
    (s0 : St K W S) (h0 : importPkg X path old env files os = .ok s0) : MemFollows X.P (now X.P s0.cfg) s0.mem := (inv_import h0).2.1

/-! ## C101 -/

theorem nameOf_policyOf (p : MemCache.Policy) : policyOf (.ok (.str (nameOf p))) = some p := by cases p <;> decide

theorem limitOf_limitV (n : Option Int) : limitOf (.ok (limitV n)) = some n := by cases n <;> rfl

/-- A cache that follows the configuration with a usable limit: the configuration is valid. -/
theorem valid_of_follows {P : Config.Py} {c : Config.St} {m : MemCache.Cache K W S} (h : MemFollows P (now P c) m) (hb : Bound m) :
    (memCfg P c).Valid := by
  obtain ⟨n, h1, h2⟩ := h.limit
  refine ⟨n, m.policy, ?_, ?_, fun hl => ?_⟩
  · show limitOf _ = _; rw [h1]; exact limitOf_limitV n
  · show policyOf _ = _; rw [h.policy]; exact nameOf_policyOf _
  · rw [← h2 hl]; exact bound_pos hb hl

/-- The import succeeds exactly with valid settings of the in-memory cache. -/
theorem import_ok_iff (X : Ext) (path old : String) (env : Env) (files : String → Option File) (os : DiskCache.Policy.Os) :
    (∃ s : St K W S, importPkg X path old env files os = .ok s) ↔ (memCfg X.P (registered X.P path old env files)).Valid := by
  have hacc : Acc (MemCache.initial : MemCache.Cache K W S) := by constructor <;> simp [MemCache.initial, MemCache.total]
  rw [← MemCache.update_ok_iff (memCfg X.P (registered X.P path old env files)) (MemCache.initial : MemCache.Cache K W S) hacc
    (fun _ => ⟨300 * 1024 * 1024, rfl, by decide⟩)]
  unfold importPkg
  generalize MemCache.update (memCfg X.P (registered X.P path old env files)) (MemCache.initial : MemCache.Cache K W S) = x
  obtain ⟨e, m⟩ := x
  cases e <;> simp

/-- A program and then an action, seen by the configuration. -/
theorem run_act_table (X : Ext) (M : Keys Q K W) (p : Prog Q W S) (a : Act) (s : St K W S) :
    ∃ R, (Config.run X.P R p.erase s.cfg).2 = (run X M p s).2.cfg ∧
      Config.act X.P R a (run X M p s).2.cfg = ((act X a (run X M p s).2).1, (act X a (run X M p s).2).2.cfg) := by
  obtain ⟨l1, f1, h1⟩ := run_sim X M p s
  obtain ⟨l2, f2, h2⟩ := act_sim X a (run X M p s).2
  let g : Nat → Bool := fun i => if i < (run X M p s).2.cfg.log.length then f1 i else f2 i
  have e1 : Config.run X.P (table g) p.erase s.cfg = ((run X M p s).1, (run X M p s).2.cfg) := h1 g (fun i _ hi => if_pos hi)
  have e2 := h2 g (fun i hi _ => if_neg (not_lt.2 hi))
  exact ⟨table g, by rw [e1], e2⟩

/-- What happens before the program of the user. -/
theorem registered_run (P : Config.Py) (R : Raises) (path old : String) (env : Env) (files : String → Option File) (p : Config.Prog) :
    Config.run P R (.seq (.act (.onChange 0)) (.seq (.act (.onChange 1)) p)) (Config.start P path old env files) =
      Config.run P R p (registered P path old env files) := by
  have hcb : (Config.start P path old env files).callbacks = [] := by
    unfold Config.start
    simp only
    split
    · rw [(Config.saveCfg_core _ _ _).callbacks]
    · rfl
  have : { Config.start P path old env files with callbacks := (Config.start P path old env files).callbacks ++ [0] ++ [1] } =
      registered P path old env files := by unfold registered; rw [hcb]; rfl
  rw [← this]
  rfl

theorem registered_now (P : Config.Py) (path old : String) (env : Env) (files : String → Option File) :
    now P (registered P path old env files) = (Config.start P path old env files).view P := rfl

/-- C101: in a process that was started without a configuration file, if the in-memory cache never refused a change, then after
`config.set` or `config.reset` returned (not in a temporary block, values a yaml file can hold, file written) a new process with the
same environment can import the package, reads the same configuration, and its in-memory cache follows it. -/
theorem C101_starts_again_partial (X : Ext) (M : Keys Q K W) (path old old' : String) (env : Env) (files : String → Option File)
    (hf : files path = none) (hf' : files old = none) (os os' : DiskCache.Policy.Os)
    (s0 : St K W S) (h0 : importPkg X path old env files os = .ok s0) (p : Prog Q W S) (s s' : St K W S) (hs : s = (run X M p s0).2)
    (hst : s.cfg.stack = []) (hy : s.cfg.root.yaml = some path) (hw : s.cfg.writable path = true) (has : s.cfg.autosave = true)
    (a : Act) (ha : IsChange a) (h : act X a s = (none, s')) (hr : s'.refusals = 0)
    (hsafe : ∀ name r v, Config.ruleOf name = some r → s'.cfg.root.conf name = some v → Config.safe X.P v = true) :
    ∃ s'' : St K W S, importPkg X path old' s'.cfg.env s'.cfg.files os' = .ok s'' ∧ now X.P s''.cfg = now X.P s'.cfg ∧
      MemFollows X.P (now X.P s'.cfg) s''.mem := by
  obtain ⟨i0, _, c0⟩ := inv_import h0
  subst hs
  have hi := inv_act (inv_run (M := M) p i0) a
  have hfor := change_inForce (inv_run (M := M) p i0) ha h
  rw [h] at hi
  obtain ⟨R, e1, e2⟩ := run_act_table X M p a s0
  rw [h] at e2
  have hview : ∀ name, (Config.start X.P path old' s'.cfg.env s'.cfg.files).view X.P name = s'.cfg.view X.P name := fun name =>
    Config.C22_restart_partial X.P R path old env files hf hf' (.seq (.act (.onChange 0)) (.seq (.act (.onChange 1)) p.erase)) _ _
      (by rw [registered_run, ← c0, e1]) hst hy hw has a ha e2 hsafe name old'
  have hnow : now X.P (registered X.P path old' s'.cfg.env s'.cfg.files) = now X.P s'.cfg := by
    rw [registered_now]; exact funext hview
  have hval : (memCfg X.P (registered X.P path old' s'.cfg.env s'.cfg.files)).Valid := by
    have := valid_of_follows hfor.memory (hi.bound hr)
    unfold memCfg at this ⊢
    rwa [hnow]
  obtain ⟨s'', h2⟩ := (import_ok_iff (K := K) (W := W) (S := S) X path old' s'.cfg.env s'.cfg.files os').2 hval
  obtain ⟨_, h3, h4⟩ := inv_import h2
  rw [h4, hnow] at h3
  exact ⟨s'', h2, by rw [h4, hnow], h3⟩

/-- What a configuration must say for the package to be importable: a size of the in-memory cache, a known policy for it, and a
positive size if the policy has a limit. -/
def Startable (v : String → Except Err V) : Prop :=
  ∃ (n : Option Int) (p : MemCache.Policy), v "maximum-weights-memory-cache-size" = .ok (limitV n) ∧
    v "weights-memory-cache-policy" = .ok (.str (nameOf p)) ∧ (p = .lru ∨ p = .largest → ∃ m, n = some m ∧ 0 < m)

theorem startable_iff (P : Config.Py) (c : Config.St) : (memCfg P c).Valid ↔ Startable (now P c) := by
  constructor
  · rintro ⟨n, p, h1, h2, h3⟩
    exact ⟨n, p, limitOf_some h1, policyOf_some h2, h3⟩
  · rintro ⟨n, p, h1, h2, h3⟩
    refine ⟨n, p, ?_, ?_, h3⟩
    · show limitOf _ = _; rw [h1]; exact limitOf_limitV n
    · show policyOf _ = _; rw [h2]; exact nameOf_policyOf _

/-- C101, exactly: in a process that was started without a configuration file, after `config.set` or `config.reset` returned (not in a
temporary block, values a yaml file can hold, file written) a new process with the same environment can import the package iff the
configuration is startable; then it reads the same configuration, and its in-memory cache follows it. -/
theorem C101_exact (X : Ext) (M : Keys Q K W) (path old old' : String) (env : Env) (files : String → Option File)
    (hf : files path = none) (hf' : files old = none) (os os' : DiskCache.Policy.Os)
    (s0 : St K W S) (h0 : importPkg X path old env files os = .ok s0) (p : Prog Q W S) (s s' : St K W S) (hs : s = (run X M p s0).2)
    (hst : s.cfg.stack = []) (hy : s.cfg.root.yaml = some path) (hw : s.cfg.writable path = true) (has : s.cfg.autosave = true)
    (a : Act) (ha : IsChange a) (h : act X a s = (none, s'))
    (hsafe : ∀ name r v, Config.ruleOf name = some r → s'.cfg.root.conf name = some v → Config.safe X.P v = true) :
    ((∃ s'' : St K W S, importPkg X path old' s'.cfg.env s'.cfg.files os' = .ok s'') ↔ Startable (now X.P s'.cfg)) ∧
    ∀ s'' : St K W S, importPkg X path old' s'.cfg.env s'.cfg.files os' = .ok s'' → now X.P s''.cfg = now X.P s'.cfg ∧
      MemFollows X.P (now X.P s'.cfg) s''.mem := by
  obtain ⟨i0, _, c0⟩ := inv_import h0
  subst hs
  obtain ⟨R, e1, e2⟩ := run_act_table X M p a s0
  rw [h] at e2
  have hview : ∀ name, (Config.start X.P path old' s'.cfg.env s'.cfg.files).view X.P name = s'.cfg.view X.P name := fun name =>
    Config.C22_restart_partial X.P R path old env files hf hf' (.seq (.act (.onChange 0)) (.seq (.act (.onChange 1)) p.erase)) _ _
      (by rw [registered_run, ← c0, e1]) hst hy hw has a ha e2 hsafe name old'
  have hnow : now X.P (registered X.P path old' s'.cfg.env s'.cfg.files) = now X.P s'.cfg := by
    rw [registered_now]; exact funext hview
  refine ⟨?_, fun s'' h2 => ?_⟩
  · rw [import_ok_iff, startable_iff, hnow]
  · obtain ⟨_, h3, h4⟩ := inv_import h2
    rw [h4, hnow] at h3
    exact ⟨by rw [h4, hnow], h3⟩

/-! ### A process for the examples -/

namespace Demo

def X : Ext := ⟨Config.py, id, fun _ => false, fun _ _ => false⟩
def M : Keys Nat Nat Nat := ⟨id, id⟩
def os : DiskCache.Policy.Os := DiskCache.Policy.bareOs
def begin : Except MemCache.Err (St Nat Nat Unit) := importPkg X "/cfg" "/old" (fun _ => none) (fun _ => none) os
def first : St Nat Nat Unit := begin.toOption.getD ⟨Config.fresh, .init os, MemCache.initial, 0⟩

theorem begin_ok : begin = .ok first := by
  have : ∃ s, begin = .ok s := (import_ok_iff X "/cfg" "/old" (fun _ => none) (fun _ => none) os).2
    ⟨some 524288000, .largest, by decide +kernel, by decide +kernel, fun _ => ⟨_, rfl, by decide⟩⟩
  obtain ⟨s, h⟩ := this
  unfold first
  rw [h]; rfl

/-- `config.set(name, v)` -/
def put (name : String) (v : V) : Act := .set (.pos name [v] false)

/-- The next import. -/
def again (s : St Nat Nat Unit) : Except MemCache.Err (St Nat Nat Unit) := importPkg X "/cfg" "/old" s.cfg.env s.cfg.files os

end Demo

open Demo in
/-- What goes on after an import, for examples: error of the second action, refusals, whether the next import works. -/
example : (act X (put "maximum-weights-memory-cache-size" (.str "1MB".toList)) first).1 = none ∧
    (act X (put "maximum-weights-memory-cache-size" (.str "1MB".toList)) first).2.refusals = 0 ∧
    (act X (put "maximum-weights-memory-cache-size" (.str "1MB".toList)) first).2.cfg.stack = [] ∧
    (act X (put "maximum-weights-memory-cache-size" (.str "1MB".toList)) first).2.mem.maxMem = some 1048576 := by decide +kernel

open Demo in
/-- C100 needs that the change was not refused: a dict refused half way (unknown option) changes what `config.get` reports, and the
caches are not told. -/
theorem C100_half_refuted : begin = .ok first ∧ ∃ r s', act X (.set r) first = (some .key, s') ∧
    now X.P s'.cfg "weights-memory-cache-policy" = .ok (.str "off".toList) ∧ s'.mem.policy = .largest := by
  refine ⟨begin_ok, .dict [("weights-memory-cache-policy", .str "off".toList), ("no-such-option", .none)], _,
    Prod.ext (by decide +kernel) rfl, by decide +kernel, by decide +kernel⟩

open Demo in
/-- C101 fails: the documented value None for the size of the in-memory cache is saved before the cache refuses it; the next import
raises. -/
theorem C101_refuted : begin = .ok first ∧ Config.Acceptable X.P "maximum-weights-memory-cache-size" .none ∧
    (act X (put "maximum-weights-memory-cache-size" .none) first).1 = some .observer ∧
    ∃ e, again (act X (put "maximum-weights-memory-cache-size" .none) first).2 = .error e := by
  refine ⟨begin_ok, ⟨_, .none, rfl, rfl⟩, by decide +kernel, ?_⟩
  have hno : ¬ ∃ s, again (act X (put "maximum-weights-memory-cache-size" .none) first).2 = .ok s := by
    unfold again
    rw [import_ok_iff]
    rintro ⟨v, p, h1, h2, h3⟩
    have e1 : (memCfg X.P (registered X.P "/cfg" "/old" (act X (put "maximum-weights-memory-cache-size" .none) first).2.cfg.env
      (act X (put "maximum-weights-memory-cache-size" .none) first).2.cfg.files)).maxMem = some none := by decide +kernel
    have e2 : (memCfg X.P (registered X.P "/cfg" "/old" (act X (put "maximum-weights-memory-cache-size" .none) first).2.cfg.env
      (act X (put "maximum-weights-memory-cache-size" .none) first).2.cfg.files)).policy = some .largest := by decide +kernel
    rw [e1] at h1; rw [e2] at h2
    cases h1; cases h2
    obtain ⟨m, hm, _⟩ := h3 (.inr rfl)
    cases hm
  cases h : again (act X (put "maximum-weights-memory-cache-size" .none) first).2 with
  | error e => exact ⟨e, rfl⟩
  | ok s => exact absurd ⟨s, h⟩ hno

namespace Demo
/-- A size of 0 is set, the exception is caught, the program goes on and sets something else. -/
def zero : Prog Nat Nat Unit := .catch_ (.act (put "maximum-weights-memory-cache-size" (.int 0))) .skip
def afterZero : Option Err × St Nat Nat Unit := act X (put "maximum-cache-size" (.str "1GB".toList)) (run X M zero first).2
end Demo

open Demo in
/-- C101 fails also after changes that return: a refused limit stays, later changes return, the next import raises. -/
theorem C101_success_refuted : begin = .ok first ∧ afterZero.1 = none ∧ afterZero.2.cfg.stack = [] ∧ afterZero.2.refusals = 1 ∧
    ∃ e, again afterZero.2 = .error e := by
  refine ⟨begin_ok, by decide +kernel, by decide +kernel, by decide +kernel, ?_⟩
  have hno : ¬ ∃ s, again afterZero.2 = .ok s := by
    unfold again
    rw [import_ok_iff]
    rintro ⟨v, p, h1, h2, h3⟩
    have e1 : (memCfg X.P (registered X.P "/cfg" "/old" afterZero.2.cfg.env afterZero.2.cfg.files)).maxMem = some (some 0) := by decide +kernel
    have e2 : (memCfg X.P (registered X.P "/cfg" "/old" afterZero.2.cfg.env afterZero.2.cfg.files)).policy = some .largest := by decide +kernel
    rw [e1] at h1; rw [e2] at h2
    cases h1; cases h2
    obtain ⟨m, hm, hp⟩ := h3 (.inr rfl)
    cases hm; omega
  cases h : again afterZero.2 with
  | error e => exact ⟨e, rfl⟩
  | ok s => exact absurd ⟨s, h⟩ hno

namespace Demo
/-- Both caches in a block with their own settings; the program raises in it. -/
def block : Prog Nat Nat Unit :=
  .temp (some (.dict [("weights-memory-cache-policy", .str "unlimited".toList), ("cache-policy", .str "off".toList)])) none
    (.seq .directory (.seq (.lookup ⟨fun _ => .ok (some ⟨some 3, 0⟩), fun _ => .ok (some 5, none)⟩ 7) .raise))
end Demo

open Demo in
example : (run X M block first).1 = some .user ∧ (run X M block first).2.mem.policy = .largest ∧
    (run X M block first).2.mem.items.length = 1 ∧ ((run X M block first).2.disk.policy.map (·.kind)) = some .user := by decide +kernel

namespace Demo
/-- A lookup, then a smaller limit is set. -/
def before : Prog Nat Nat Unit := .lookup ⟨fun _ => .ok (some ⟨some 3, 0⟩), fun _ => .ok (some 5, none)⟩ 7
def smaller : Act := put "maximum-weights-memory-cache-size" (.str "1MB".toList)
def after : Prog Nat Nat Unit := .seq .use (.seq before .directory)

theorem smaller_ok : act X smaller (run X M before first).2 = (none, (act X smaller (run X M before first).2).2) :=
  Prod.ext (by decide +kernel) rfl

theorem block_raises : run X M block (run X M before first).2 = (some .user, (run X M block (run X M before first).2).2) :=
  Prod.ext (by decide +kernel) rfl
end Demo

open Demo in
/-- `C100_change`, `C100_kept`, `C100_below_limit`: a limit set after a lookup, and the caches used afterwards. -/
example : InForce X (act X smaller (run X M before first).2).2 ∧ InForce X (run X M after (act X smaller (run X M before first).2).2).2 ∧
    ∃ m, now X.P (run X M after (act X smaller (run X M before first).2).2).2.cfg "maximum-weights-memory-cache-size" = .ok (.int m) ∧
      MemCache.total (run X M after (act X smaller (run X M before first).2).2).2.mem.items < m :=
  ⟨C100_change X M "/cfg" "/old" _ _ os first begin_ok before smaller (.inl ⟨_, rfl⟩) _ smaller_ok,
    C100_kept X M "/cfg" "/old" _ _ os first begin_ok before smaller (.inl ⟨_, rfl⟩) _ smaller_ok after ⟨trivial, trivial, trivial⟩,
    C100_below_limit X M "/cfg" "/old" _ _ os first begin_ok before smaller (.inl ⟨_, rfl⟩) _ smaller_ok after ⟨trivial, trivial, trivial⟩
      (by decide +kernel) (by rw [show (run X M after (act X smaller (run X M before first).2).2).2.mem.policy = .largest by decide +kernel]; exact .inr rfl)⟩

open Demo in
/-- `C100_temporary`: after the block, which raises, the caches do what the settings around it say. -/
example : InForce X (run X M block (run X M before first).2).2 :=
  (C100_temporary X M "/cfg" "/old" _ _ os first begin_ok before _ none _ (some .user) (.inr rfl) _
    block_raises).1

open Demo in
/-- `C100_import` -/
example : MemFollows X.P (now X.P first.cfg) first.mem := C100_import X "/cfg" "/old" _ _ os first begin_ok

namespace Demo
/-- The options of the package. -/
def names : List String := ["user-cache-directory", "temporary-cache-directory-root", "temporary-directory-root", "cache-policy", "maximum-cache-size",
  "maximum-cache-disk-usage", "url-download-timeout", "check-out-of-date-urls", "download-out-of-date-urls", "maximum-weights-memory-cache-size",
  "weights-memory-cache-policy", "weights-memory-cache-strict-mode"]

theorem all_safe (c : Conf) (h : ∀ n ∈ names, (c n).all (Config.safe X.P) = true) (name : String) (r : Config.Rule) (v : V)
    (hr : Config.ruleOf name = some r) (hv : c name = some v) : Config.safe X.P v = true := by
  have hn : name ∈ names := by
    unfold names
    unfold Config.ruleOf at hr
    split at hr <;> first | (cases hr; done) | simp
  have h := h name hn
  rw [hv] at h
  exact h
end Demo

open Demo in
/-- `C101_exact` where the import fails: a limit of 0 was refused but stays, and another option was set since. -/
example : ¬ ∃ s'' : St Nat Nat Unit, again afterZero.2 = .ok s'' := by
  have h := (C101_exact X M "/cfg" "/old" "/old" (fun _ => none) (fun _ => none) rfl rfl os os first begin_ok zero _ afterZero.2 rfl
    (by decide +kernel) (by decide +kernel) (by decide +kernel) (by decide +kernel) (put "maximum-cache-size" (.str "1GB".toList))
    (.inl ⟨_, rfl⟩) (Prod.ext (by decide +kernel) rfl) (all_safe _ (by decide +kernel))).1
  unfold again
  rw [h]
  rintro ⟨n, p, h1, h2, h3⟩
  have e1 : now X.P afterZero.2.cfg "maximum-weights-memory-cache-size" = .ok (limitV (some 0)) := by decide +kernel
  have e2 : now X.P afterZero.2.cfg "weights-memory-cache-policy" = .ok (.str (nameOf .largest)) := by decide +kernel
  rw [e1] at h1; rw [e2] at h2
  have hp : p = .largest := by
    have : nameOf .largest = nameOf p := by simpa using h2
    cases p <;> first | rfl | (revert this; decide)
  obtain ⟨m, hm, hpos⟩ := h3 (.inr hp)
  subst hm
  have : (0 : Int) = m := by simpa [limitV] using h1
  omega

open Demo in
/-- `C101_starts_again_partial`: the limit is saved, the next process starts with it. -/
example : ∃ s'' : St Nat Nat Unit, again (act X smaller (run X M before first).2).2 = .ok s'' ∧
    now X.P s''.cfg = now X.P (act X smaller (run X M before first).2).2.cfg := by
  have hsafe := all_safe (act X smaller (run X M before first).2).2.cfg.root.conf (by decide +kernel)
  obtain ⟨s'', h1, h2, -⟩ := C101_starts_again_partial X M "/cfg" "/old" "/old" (fun _ => none) (fun _ => none) rfl rfl os os first begin_ok before _ _ rfl
    (by decide +kernel) (by decide +kernel) (by decide +kernel) (by decide +kernel) smaller (.inl ⟨_, rfl⟩) smaller_ok (by decide +kernel)
    hsafe
  exact ⟨s'', h1, h2⟩

open Demo in
example : (Prog.seq .use (.seq .directory .clear) : Prog Nat Nat Unit).uses := ⟨trivial, trivial, trivial⟩

end Verif.Process
