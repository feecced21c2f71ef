import Verif.Config.Props3

/-! `config.save_as` (C116): a copy of the configuration in another file, at any point of a program. -/

namespace Verif.Config
open Verif.Humanize

/-- The argument of `save_as`: a text, or any other object (`pathlib.Path`), for which `path + ".lock"` raises (config.py:257). -/
inductive PathArg where
  | text (p : String)
  | other

/-- `save_as` — config.py:526-534 (forwarded to the visible object, 526) with `save_config` (253-279): every error is logged
only. As in `saveCfg`, a path that cannot be written keeps its former content; the lock file is not modelled. -/
def saveAs (P : Py) (a : PathArg) (s : St) : St :=
  match a with
  | .other => s
  | .text p => if s.writable p then { s with files := fun q => if q = p then some (dump P s.top.conf) else s.files q } else s

/-- The states in which a statement of a program is executed: a first start on a machine without configuration, then
statements that were completed (or failed and were caught), and entries of temporary blocks that are still open. -/
inductive Point (P : Py) (R : Raises) : St → Prop
  | first (path old : String) (env : Env) (files : String → Option File) (h : files path = none) (h' : files old = none) :
      Point P R (start P path old env files)
  | after (p : Prog) (s : St) (h : Point P R s) : Point P R (run P R p s).2
  | inside (r : Option Req) (y : Option String) (s : St) (t : Cfg) (s1 s2 : St) (h : Point P R s)
      (hm : makeTemp P r y s = (none, t, s1)) (hn : notify R { s1 with stack := t :: s1.stack } = (none, s2)) : Point P R s2
  | saved (a : PathArg) (s : St) (h : Point P R s) : Point P R (saveAs P a s)

theorem saveAs_core (P : Py) (a : PathArg) (s : St) : (saveAs P a s).root = s.root ∧ (saveAs P a s).stack = s.stack ∧
    (saveAs P a s).env = s.env ∧ (saveAs P a s).callbacks = s.callbacks ∧ (saveAs P a s).autosave = s.autosave ∧
    (saveAs P a s).log = s.log ∧ (saveAs P a s).writable = s.writable := by
  unfold saveAs
  cases a with
  | other => simp
  | text p => by_cases h : s.writable p = true <;> simp [h]

theorem Point.typed {P : Py} {R : Raises} {s : St} (h : Point P R s) : s.Typed P := by
  induction h with
  | first path old env files h h' => exact fold_typed P path old env files h h'
  | after p s _ ih => exact run_typed P R p s ih
  | inside r y s t s1 s2 _ hm hn ih =>
    have h1 := (typed_stable P R).push r y s trivial ih (by rw [hm])
    rw [hm] at h1
    have h2 := (typed_stable P R).notify ({ s1 with stack := t :: s1.stack } : St).callbacks _ h1
    unfold notify at hn
    rw [hn] at h2
    exact h2
  | saved a s _ ih =>
    obtain ⟨h1, h2, _⟩ := saveAs_core P a s
    exact ⟨by rw [h1]; exact ih.1, by rw [h2]; exact ih.2⟩

/-! ### C116 -/

/-- `save_as` does not touch the running program: every option reads as before, in the visible object and in the hidden ones,
no observer is called, and no other file is written. -/
theorem C116_alone (P : Py) (a : PathArg) (s : St) :
    (∀ name, (saveAs P a s).view P name = s.view P name) ∧ (saveAs P a s).root = s.root ∧ (saveAs P a s).stack = s.stack ∧
    (saveAs P a s).log = s.log ∧ (saveAs P a s).autosave = s.autosave ∧
    ∀ q, a ≠ .text q → (saveAs P a s).files q = s.files q := by
  obtain ⟨h1, h2, h3, _, h5, h6, _⟩ := saveAs_core P a s
  refine ⟨fun name => ?_, h1, h2, h6, h5, fun q hq => ?_⟩
  · unfold St.view St.top; rw [h1, h2, h3]
  · unfold saveAs
    cases a with
    | other => rfl
    | text p =>
      have : q ≠ p := fun h => hq (by rw [h])
      by_cases h : s.writable p = true <;> simp [h, this]

/-- At any point of any program, also inside temporary blocks: a process started later with the copy as its configuration
file (by whatever name, with any other files lost or changed) and the same environment variables reads every option as it
was read where the copy was made. Partial: the values have to be such that yaml reads them back, and the path writable. -/
theorem C116_restart_partial (P : Py) (R : Raises) (s : St) (h : Point P R s)
    (hsafe : ∀ name r v, ruleOf name = some r → s.top.conf name = some v → safe P v = true) (p : String) (hw : s.writable p = true)
    (old : String) (files : String → Option File) (hf : files p = (saveAs P (.text p) s).files p) (name : String) :
    (start P p old s.env files).view P name = s.view P name := by
  have hfile : files p = some (dump P s.top.conf) := by rw [hf]; simp [saveAs, hw]
  rw [start_view P p old s.env files _ hfile name]
  unfold St.view
  exact getConf_congr P _ _ _ (fun nm r hr => load_dump P s.top.conf h.typed.top hsafe nm r hr) name

/-- The copy is that of the moment: whatever the program does afterwards without writing that path (here: any change made to
the visible object while automatic saving is off) leaves the copy alone. -/
theorem C116_moment (P : Py) (R : Raises) (s : St) (a : PathArg) (r : Req) (hoff : s.autosave = false) (q : String) :
    (set P R r (saveAs P a s)).2.files q = (saveAs P a s).files q := by
  have hoff' : (saveAs P a s).autosave = false := by rw [(saveAs_core P a s).2.2.2.2.1]; exact hoff
  have key : ∀ n (t : St), t.autosave = false → (changedN P R n t).2.files = t.files := by
    intro n
    induction n with
    | zero => intro t _; rfl
    | succ n ih =>
      intro t ht
      have hc : (changed P R t).2.files = t.files ∧ (changed P R t).2.autosave = false := by
        unfold changed
        rw [if_neg (by simp [ht])]
        have : ∀ (os : List Nat) (u : St), (notifyL R os u).2.files = u.files ∧ (notifyL R os u).2.autosave = u.autosave := by
          intro os
          induction os with
          | nil => intro u; exact ⟨rfl, rfl⟩
          | cons o os ih =>
            intro u
            unfold notifyL
            by_cases hR : R o u = true
            · simp [hR]
            · simp only [hR]
              exact ⟨(ih _).1, (ih _).2⟩
        exact ⟨(this _ t).1, by rw [← ht]; exact (this _ t).2⟩
      unfold changedN
      cases hcc : changed P R t with
      | mk e u =>
        rw [hcc] at hc
        cases e with
        | some e => exact hc.1
        | none => rw [ih u hc.2]; exact hc.1
  unfold set
  generalize applyReq P (saveAs P a s).top.conf r = x
  obtain ⟨e, c, n⟩ := x
  have hset : ∀ t : St, (t.setTop c).files = t.files ∧ (t.setTop c).autosave = t.autosave := by
    intro t; unfold St.setTop; cases t.stack <;> exact ⟨rfl, rfl⟩
  cases e with
  | some e => rw [(hset _).1]
  | none =>
    simp only
    rw [key _ _ (by rw [(hset _).2]; exact hoff'), (hset _).1]

/-- What is not saved is not reported: with an object that is not a text, or a path that cannot be written, nothing at all
happens and `save_as` ends normally. -/
theorem C116_silent (P : Py) (s : St) : saveAs P .other s = s ∧ ∀ p, s.writable p = false → saveAs P (.text p) s = s := by
  refine ⟨rfl, fun p hp => ?_⟩
  simp [saveAs, hp]

/-- The full claim fails: (1) with a value in force from an environment variable, the copy holds the stored value, and a
process without the variable reads that one; (2) with a value yaml does not read back every option is lost. -/
theorem C116_refuted :
    (∃ s : St, Point py quiet s ∧ s.writable "/copy" = true ∧
      s.view py "cache-policy" = .ok (.str "off".toList) ∧
      (start py "/copy" "/old" (fun _ => none) (saveAs py (.text "/copy") s).files).view py "cache-policy" = .ok (.str "user".toList)) ∧
    (∃ s : St, Point py quiet s ∧ s.writable "/copy" = true ∧
      s.view py "cache-policy" = .ok (.str "off".toList) ∧
      (start py "/copy" "/old" s.env (saveAs py (.text "/copy") s).files).view py "cache-policy" = .ok (.str "user".toList)) := by
  refine ⟨⟨start py "/cfg" "/old" (fun n => if n = "EARTHKIT_REGRID_CACHE_POLICY".toList then some "off".toList else none) (fun _ => none),
    .first _ _ _ _ rfl rfl, rfl, ?_, ?_⟩,
    ⟨(run py quiet (.seq (.act (.set (.pos "cache-policy" [.str "off".toList] false)))
        (.act (.set (.pos "temporary-directory-root" [.other 0] false)))) fresh).2,
      .after _ _ (.first _ _ _ _ rfl rfl), rfl, ?_, ?_⟩⟩ <;> decide +kernel

/-- Inside a temporary block with another policy: the copy has the temporary policy, the file of the configuration does not. -/
def inBlock : St :=
  let m := makeTemp py (some (.pos "cache-policy" [.str "off".toList] false)) none fresh
  (notify quiet { m.2.2 with stack := m.2.1 :: m.2.2.stack }).2

theorem inBlock_point : Point py quiet inBlock :=
  .inside (some (.pos "cache-policy" [.str "off".toList] false)) none fresh _ _ _ (.first _ _ _ _ rfl rfl) rfl rfl

theorem inBlock_safe : ∀ name r v, ruleOf name = some r → inBlock.top.conf name = some v → safe py v = true := by
  intro name r v hr hv
  have key : ∀ n ∈ SORTED, ((inBlock.top.conf n).all (safe py)) = true := by decide +kernel
  have := key name (sorted_mem name r hr)
  rw [hv] at this
  exact this

example : inBlock.stack.length = 1 ∧ inBlock.writable "/copy" = true ∧
    (start py "/copy" "/old" (fun _ => none) (saveAs py (.text "/copy") inBlock).files).view py "cache-policy" = .ok (.str "off".toList) ∧
    (start py "/cfg" "/old" (fun _ => none) (saveAs py (.text "/copy") inBlock).files).view py "cache-policy" = .ok (.str "user".toList) := by
  decide +kernel

/-- `C116_restart_partial` -/
example : (start py "/copy" "/old" inBlock.env (saveAs py (.text "/copy") inBlock).files).view py "cache-policy" = inBlock.view py "cache-policy" :=
  C116_restart_partial py quiet inBlock inBlock_point inBlock_safe "/copy" (by decide +kernel) "/old" _ rfl "cache-policy"

/-- `C116_moment` -/
example : (set py quiet (.pos "cache-policy" [.str "temporary".toList] false) (saveAs py (.text "/copy") { inBlock with autosave := false })).2.files "/copy" =
    (saveAs py (.text "/copy") { inBlock with autosave := false }).files "/copy" :=
  C116_moment py quiet { inBlock with autosave := false } (.text "/copy") (.pos "cache-policy" [.str "temporary".toList] false) rfl "/copy"

end Verif.Config
