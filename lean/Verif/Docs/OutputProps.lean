import Verif.Docs.Output
import Mathlib.Data.List.Forall2

/-!
# C149: what a module prints is what the page shows
-/

namespace Verif.Docs.Output

/-! ## Specification -/

/-- What a program prints before it ends. -/
def printed : List Act → Text
  | [] => []
  | .print t :: p => t ++ printed p
  | .setOut _ :: p => printed p
  | .stop _ :: _ => []

/-- How a program ends. -/
def ends : List Act → Option Exc
  | [] => none
  | .stop e :: _ => some e
  | .print _ :: p => ends p
  | .setOut _ :: p => ends p

/-- The program leaves `sys.stdout` alone. -/
def Plain (p : List Act) : Prop := ∀ k, Act.setOut k ∉ p

/-- `line` is made of these words with one blank between two of them. -/
def Words : List Text → Text → Prop
  | [], _ => False
  | [a], line => ' ' ∉ a ∧ line = a
  | a :: b :: r, line => ' ' ∉ a ∧ ∃ rest, Words (b :: r) rest ∧ line = a ++ ' ' :: rest

/-- The directive asks for this module with these arguments: its first line that is not empty. -/
def Asks (content : List Text) (name : Text) (args : List Text) : Prop :=
  ∃ blank line rest, content = blank ++ line :: rest ∧ (∀ b ∈ blank, b = []) ∧ line ≠ [] ∧ Words (name :: args) line

/-- The page gets `block` from the directive, and the build's own output gets `log`. -/
inductive Shows (E : Env) (content : List Text) : List Text → Text → Prop
  /-- what the module prints -/
  | output (name : Text) (args : List Text) (m : Module) : Asks content name args → E.modules (underscores name) = some m →
      Plain m.onImport → Plain (m.execute args) → ends m.onImport = none → ends (m.execute args) = none →
      Shows E content (E.lines (printed (m.execute args))) (printed m.onImport)
  /-- or the failure of the module -/
  | failed (name : Text) (args : List Text) (m : Module) (e : Exc) : Asks content name args → E.modules (underscores name) = some m →
      Plain m.onImport → Plain (m.execute args) → ends m.onImport = none → ends (m.execute args) = some e → e ≠ .exit →
      Shows E content (E.lines (name ++ '\n' :: E.trace e)) (printed m.onImport)
  /-- of its import -/
  | notImported (name : Text) (args : List Text) (m : Module) (e : Exc) : Asks content name args → E.modules (underscores name) = some m →
      Plain m.onImport → ends m.onImport = some e → e ≠ .exit →
      Shows E content (E.lines (name ++ '\n' :: E.trace e)) (printed m.onImport)
  /-- or that there is no such module -/
  | missing (name : Text) (args : List Text) : Asks content name args → E.modules (underscores name) = none →
      Shows E content (E.lines (name ++ '\n' :: E.trace (.error "ModuleNotFoundError".toList))) []

/-! ## Lemmas -/

theorem runProg_ends (p : List Act) : ∀ w, (runProg p w).2 = ends p := by
  induction p with
  | nil => intro w; rfl
  | cons a p ih => cases a <;> intro w <;> simp [runProg, ends, ih]

theorem runProg_plain (p : List Act) (hp : Plain p) : ∀ w,
    (runProg p w).1 = { w with buf := Function.update w.buf w.out (w.buf w.out ++ printed p) } := by
  induction p with
  | nil => intro w; simp [runProg, printed]
  | cons a p ih =>
    have hp' : Plain p := fun k h => hp k (List.mem_cons_of_mem _ h)
    intro w
    cases a with
    | print t =>
      show (runProg p (w.print t)).1 = _
      rw [ih hp']
      simp [World.print, printed]
    | setOut k => exact absurd (List.mem_cons_self) (hp k)
    | stop e => simp [runProg, printed]

theorem split_ne (t : Text) : split t ≠ [] := by
  cases t with
  | nil => simp [split]
  | cons c r =>
    unfold split
    split
    · simp
    · split <;> simp

theorem split_word (a : Text) (h : ' ' ∉ a) : split a = [a] := by
  induction a with
  | nil => rfl
  | cons c r ih =>
    have hc : c ≠ ' ' := fun e => h (by simp [e])
    rw [split, if_neg hc, ih fun hr => h (by simp [hr])]

theorem split_append (a rest : Text) (h : ' ' ∉ a) : split (a ++ ' ' :: rest) = a :: split rest := by
  induction a with
  | nil => simp [split]
  | cons c r ih =>
    have hc : c ≠ ' ' := fun e => h (by simp [e])
    rw [List.cons_append, split, if_neg hc, ih fun hr => h (by simp [hr])]

theorem split_words : ∀ (ws : List Text) (line : Text), Words ws line → split line = ws
  | [], _, h => h.elim
  | [a], _, ⟨h, e⟩ => by rw [e]; exact split_word a h
  | a :: b :: r, _, ⟨h, rest, hw, e⟩ => by rw [e, split_append a rest h, split_words (b :: r) rest hw]

theorem words_split : ∀ (line : Text), Words (split line) line
  | [] => ⟨by simp, rfl⟩
  | c :: r => by
    have ih := words_split r
    have hne := split_ne r
    unfold split
    split
    · rename_i hc
      cases hs : split r with
      | nil => exact absurd hs hne
      | cons a b => rw [hs] at ih; exact ⟨by simp, r, ih, by simp [hc]⟩
    · rename_i hc
      cases hs : split r with
      | nil => exact absurd hs hne
      | cons a b =>
        rw [hs] at ih
        cases b with
        | nil => exact ⟨by simpa [Ne.symm hc] using ih.1, by rw [ih.2]⟩
        | cons b r' =>
          obtain ⟨h1, rest, h2, h3⟩ := ih
          exact ⟨by simpa [Ne.symm hc] using h1, rest, h2, by rw [h3]; rfl⟩

theorem filter_asks (content : List Text) (name : Text) (args : List Text) (h : Asks content name args) :
    content ≠ [] ∧ ∃ line r, content.filter (· ≠ []) = line :: r ∧ split line = name :: args := by
  obtain ⟨blank, line, rest, rfl, hb, hl, hw⟩ := h
  refine ⟨by simp, line, rest.filter (· ≠ []), ?_, split_words _ _ hw⟩
  rw [List.filter_append]
  have : blank.filter (· ≠ []) = [] := by
    rw [List.filter_eq_nil_iff]
    intro b hb'
    simp [hb b hb']
  rw [this]
  simp [hl]

/-- The directive asks for a module, or has only empty lines. -/
theorem asks_or_blank (content : List Text) :
    (∃ name args, Asks content name args) ∨ ∀ l ∈ content, l = [] := by
  induction content with
  | nil => right; simp
  | cons l ls ih =>
    by_cases hl : l = []
    · rcases ih with ⟨name, args, b, line, r, e, hb, h⟩ | ih
      · exact Or.inl ⟨name, args, l :: b, line, r, by rw [e]; rfl, by simpa [hl] using hb, h⟩
      · right; simpa [hl] using ih
    · left
      have hw := words_split l
      cases hs : split l with
      | nil => exact absurd hs (split_ne l)
      | cons name args => rw [hs] at hw; exact ⟨name, args, [], l, ls, rfl, by simp, hl, hw⟩

theorem run_asks (E : Env) (hE : E.source = true) (content : List Text) (name : Text) (args : List Text) (h : Asks content name args)
    (w : World) : run E content w =
      ({ (handler E (some name) (body E name args w)).1 with out := w.out }, (handler E (some name) (body E name args w)).2) := by
  obtain ⟨hne, line, r, hf, hs⟩ := filter_asks content name args h
  unfold run
  rw [if_neg hne]
  simp only [hE, Bool.true_eq_false, if_false, hf, hs]

theorem handler_error (E : Env) (n : Text) (w : World) (e : Exc) (he : e ≠ .exit) :
    handler E (some n) (w, some e) = (w.insert (E.lines (n ++ '\n' :: E.trace e)), none) := by
  cases e <;> first | rfl | exact absurd rfl he

/-! ## Claims -/

/-- Whatever the module does and however the directive ends, `sys.stdout` is afterwards what it was before. -/
theorem C149_restored (E : Env) (content : List Text) (w : World) : (run E content w).1.out = w.out := by
  unfold run
  split <;> rfl

/-- The page gets exactly what is printed, in one block, or the failure and none of the output; nothing else that was written
to before changes, and what `execute` prints does not reach the output of the build. -/
theorem C149_page (E : Env) (hE : E.source = true) (content : List Text) (w : World) (hw : w.out < w.next) (block : List Text) (log : Text)
    (h : Shows E content block log) :
    (run E content w).2 = none ∧ (run E content w).1.page = w.page ++ [block] ∧
    (∀ k < w.next, (run E content w).1.buf k = if k = w.out then w.buf k ++ log else w.buf k) ∧
    w.next ≤ (run E content w).1.next := by
  have split2 : ∀ (p : List Act) (v : World), runProg p v = ((runProg p v).1, (runProg p v).2) := fun _ _ => rfl
  cases h with
  | output name args m ha hm p1 p2 e1 e2 =>
    rw [run_asks E hE content name args ha w]
    have hb : body E name args w =
        (((runProg (m.execute args) (runProg m.onImport w).1.fresh).1).insert (E.lines (printed (m.execute args))), none) := by
      unfold body
      rw [hm]
      simp only
      rw [split2 m.onImport w, runProg_ends, e1]
      simp only
      rw [split2 (m.execute args), runProg_ends, e2]
      simp only
      rw [runProg_plain _ p2, runProg_plain _ p1]
      simp [World.fresh]
    rw [hb]
    simp only [handler]
    rw [runProg_plain _ p2, runProg_plain _ p1]
    refine ⟨trivial, ?_, ?_, ?_⟩
    · simp [World.fresh, World.insert]
    · intro k hk
      have hne : k ≠ w.next := Nat.ne_of_lt hk
      simp only [World.fresh, World.insert, Function.update_self]
      rw [Function.update_of_ne hne, Function.update_of_ne hne]
      by_cases hko : k = w.out
      · subst hko; simp
      · rw [if_neg hko, Function.update_of_ne hko]
    · simp [World.fresh, World.insert]
  | failed name args m e ha hm p1 p2 e1 e2 he =>
    rw [run_asks E hE content name args ha w]
    have hb : body E name args w = ((runProg (m.execute args) (runProg m.onImport w).1.fresh).1, some e) := by
      unfold body
      rw [hm]
      simp only
      rw [split2 m.onImport w, runProg_ends, e1]
      simp only
      rw [split2 (m.execute args), runProg_ends, e2]
    rw [hb, handler_error E name _ e he, runProg_plain _ p2, runProg_plain _ p1]
    refine ⟨rfl, ?_, ?_, ?_⟩
    · simp [World.fresh, World.insert]
    · intro k hk
      have hne : k ≠ w.next := Nat.ne_of_lt hk
      simp only [World.fresh, World.insert, Function.update_self]
      rw [Function.update_of_ne hne, Function.update_of_ne hne]
      by_cases hko : k = w.out
      · subst hko; simp
      · rw [if_neg hko, Function.update_of_ne hko]
    · simp [World.fresh, World.insert]
  | notImported name args m e ha hm p1 e1 he =>
    rw [run_asks E hE content name args ha w]
    have hb : body E name args w = ((runProg m.onImport w).1, some e) := by
      unfold body
      rw [hm]
      simp only
      rw [split2 m.onImport w, runProg_ends, e1]
    rw [hb, handler_error E name _ e he, runProg_plain _ p1]
    refine ⟨rfl, ?_, ?_, ?_⟩
    · simp [World.insert]
    · intro k hk
      simp only [World.insert]
      by_cases hko : k = w.out
      · subst hko; simp
      · rw [if_neg hko, Function.update_of_ne hko]
    · simp [World.insert]
  | missing name args ha hm =>
    rw [run_asks E hE content name args ha w]
    have hb : body E name args w = (w, some (.error "ModuleNotFoundError".toList)) := by
      unfold body
      rw [hm]
    rw [hb, handler_error E name _ _ (by simp)]
    refine ⟨rfl, by simp [World.insert], ?_, by simp [World.insert]⟩
    intro k _
    by_cases hko : k = w.out <;> simp [World.insert, hko]

/-- The directives of the whole documentation: each shows its own module, whatever the others did. -/
theorem C149_pages (E : Env) (hE : E.source = true) (ds : List (List Text)) (blocks : List (List Text × Text))
    (h : List.Forall₂ (fun c b => Shows E c b.1 b.2) ds blocks) : ∀ (w : World), w.out < w.next →
    (runAll E ds w).2 = none ∧ (runAll E ds w).1.page = w.page ++ blocks.map (·.1) ∧ (runAll E ds w).1.out = w.out ∧
    (∀ k < w.next, (runAll E ds w).1.buf k = if k = w.out then w.buf k ++ (blocks.map (·.2)).flatten else w.buf k) := by
  induction h with
  | nil => intro w _; simp [runAll]
  | @cons c b cs bs hcb _ ih =>
    intro w hw
    obtain ⟨h1, h2, h3, h4⟩ := C149_page E hE c w hw b.1 b.2 hcb
    have h5 := C149_restored E c w
    have hr : runAll E (c :: cs) w = runAll E cs (run E c w).1 := by
      rw [runAll]
      generalize run E c w = r at *
      obtain ⟨w', o⟩ := r
      simp only at h1
      subst h1
      rfl
    obtain ⟨i1, i2, i3, i4⟩ := ih (run E c w).1 (by rw [h5]; exact Nat.lt_of_lt_of_le hw h4)
    rw [hr]
    refine ⟨i1, ?_, by rw [i3, h5], ?_⟩
    · rw [i2, h2]; simp
    · intro k hk
      rw [i4 k (Nat.lt_of_lt_of_le hk h4), h5, h3 k hk]
      by_cases hko : k = w.out <;> simp [hko]

open Classical in
/-- When the directive raises: it has no content (an error of docutils), or only empty lines or no known page, or the module
ends the process (`sys.exit()`). Every other failure is shown in the page. -/
theorem C149_raises (E : Env) (content : List Text) (w : World) : (run E content w).2 =
    if content = [] then some .directive
    else if E.source = false ∨ ∀ l ∈ content, l = [] then some .unbound
    else if ∃ name args m, Asks content name args ∧ E.modules (underscores name) = some m ∧
      (ends m.onImport = some .exit ∨ (ends m.onImport = none ∧ ends (m.execute args) = some .exit)) then some .exit
    else none := by
  by_cases hc : content = []
  · rw [if_pos hc]; simp [run, hc]
  rw [if_neg hc]
  by_cases hs : E.source = false
  · rw [if_pos (Or.inl hs)]
    unfold run
    rw [if_neg hc]
    simp only [hs, if_true]
    rfl
  have hE : E.source = true := by simpa using hs
  rcases asks_or_blank content with ⟨name, args, ha⟩ | hb
  · have hnb : ¬ ∀ l ∈ content, l = [] := by
      obtain ⟨b, line, r, e, _, hl, _⟩ := ha
      intro h
      exact hl (h line (by rw [e]; simp))
    rw [if_neg (by rintro (h | h); exacts [hs h, hnb h]), run_asks E hE content name args ha w]
    have uniq : ∀ n a, Asks content n a → n = name ∧ a = args := by
      intro n a h
      obtain ⟨_, l, r, h1, h2⟩ := filter_asks content n a h
      obtain ⟨_, l', r', h1', h2'⟩ := filter_asks content name args ha
      rw [h1] at h1'
      cases h1'
      rw [h2] at h2'
      cases h2'
      exact ⟨rfl, rfl⟩
    have fin : ∀ e : Exc, ∀ v, (handler E (some name) (v, some e)).2 = if e = .exit then some .exit else none := by
      intro e v
      cases e <;> rfl
    simp only
    cases hm : E.modules (underscores name) with
    | none =>
      rw [if_neg]
      · unfold body; rw [hm]; rfl
      · rintro ⟨n, a, m, h1, h2, _⟩
        obtain ⟨rfl, rfl⟩ := uniq n a h1
        rw [hm] at h2; cases h2
    | some m =>
      have hex : (∃ name args m, Asks content name args ∧ E.modules (underscores name) = some m ∧
          (ends m.onImport = some .exit ∨ (ends m.onImport = none ∧ ends (m.execute args) = some .exit))) ↔
          (ends m.onImport = some .exit ∨ (ends m.onImport = none ∧ ends (m.execute args) = some .exit)) := by
        constructor
        · rintro ⟨n, a, m', h1, h2, h3⟩
          obtain ⟨rfl, rfl⟩ := uniq n a h1
          rw [hm] at h2; cases h2
          exact h3
        · intro h; exact ⟨name, args, m, ha, hm, h⟩
      unfold body
      rw [hm]
      simp only
      have hi := runProg_ends m.onImport w
      generalize runProg m.onImport w = r1 at hi
      obtain ⟨w1, o1⟩ := r1
      simp only at hi
      cases o1 with
      | some e =>
        simp only [fin]
        by_cases hex' : e = .exit
        · subst hex'
          rw [if_pos rfl, if_pos (hex.2 (Or.inl hi.symm))]
        · rw [if_neg hex', if_neg]
          rw [hex, ← hi]
          simp [hex']
      | none =>
        simp only
        have hx := runProg_ends (m.execute args) w1.fresh
        generalize runProg (m.execute args) w1.fresh = r2 at hx
        obtain ⟨w2, o2⟩ := r2
        simp only at hx
        cases o2 with
        | some e =>
          simp only [fin]
          by_cases hex' : e = .exit
          · subst hex'
            rw [if_pos rfl, if_pos (hex.2 (Or.inr ⟨hi.symm, hx.symm⟩))]
          · rw [if_neg hex', if_neg]
            rw [hex, ← hi, ← hx]
            simp [hex']
        | none =>
          rw [if_neg (fun h => by rw [hex, ← hi, ← hx] at h; simp at h)]
          simp only
          split <;> simp [handler]
  · rw [if_pos (Or.inr hb)]
    have hf : content.filter (· ≠ []) = [] := by
      rw [List.filter_eq_nil_iff]
      intro l hl
      simp [hb l hl]
    unfold run
    rw [if_neg hc]
    simp only [hE, Bool.true_eq_false, if_false, hf]
    rfl

/-! ## The hypotheses can be met -/

/-- Two modules: one prints two lines, one prints a line and fails. -/
def demoEnv : Env where
  modules n := if n = "generate_table".toList then some ⟨[], fun a => [.print "a\n".toList, .print (a.flatten)]⟩
    else if n = "broken".toList then some ⟨[.print "!".toList], fun _ => [.print "half".toList, .stop (.error "KeyError".toList)]⟩
    else none
  source := true
  lines t := [t]
  trace e := match e with
    | .error t => t
    | _ => []

def demoWorld : World := ⟨0, fun _ => [], fun _ => false, 1, []⟩

theorem demo_shows : Shows demoEnv [[], "generate-table x y".toList] ["a\nxy".toList] [] :=
  .output "generate-table".toList ["x".toList, "y".toList] ⟨[], fun a => [.print "a\n".toList, .print (a.flatten)]⟩
    ⟨[[]], "generate-table x y".toList, [], rfl, by simp, by decide, by decide, "x y".toList, ⟨by decide, "y".toList, ⟨by decide, rfl⟩, rfl⟩, rfl⟩
    rfl (by intro k; simp) (by intro k; simp) rfl rfl

theorem demo_fails : Shows demoEnv ["broken".toList] ["broken\nKeyError".toList] "!".toList :=
  .failed "broken".toList [] ⟨[.print "!".toList], fun _ => [.print "half".toList, .stop (.error "KeyError".toList)]⟩ (.error "KeyError".toList)
    ⟨[], "broken".toList, [], rfl, by simp, by decide, by decide, rfl⟩ rfl (by intro k; simp) (by intro k; simp) rfl rfl (by simp)

example : (runAll demoEnv [[[], "generate-table x y".toList], ["broken".toList], [[], "generate-table x y".toList]] demoWorld).1.page =
    [["a\nxy".toList], ["broken\nKeyError".toList], ["a\nxy".toList]] :=
  (C149_pages demoEnv rfl _ [(_, []), (_, "!".toList), (_, [])] (.cons demo_shows (.cons demo_fails (.cons demo_shows .nil))) demoWorld (by decide)).2.1

/-- `C149_page` -/
example : (run demoEnv [[], "generate-table x y".toList] demoWorld).1.page = [["a\nxy".toList]] :=
  (C149_page demoEnv rfl _ demoWorld (by decide) _ _ demo_shows).2.1

example : (run demoEnv [[]] demoWorld).2 = some .unbound := by
  rw [C149_raises]; simp

end Verif.Docs.Output
