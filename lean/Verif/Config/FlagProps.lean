import Verif.Config.Props3

/-! # C25: when an option that is a flag is off -/

namespace Verif.Config

/-- C25 (exact): after an accepted `set`, a flag counts as off iff its environment variable is the empty text, or there is no variable and the value
set is one python takes for false; of texts that is only the empty one. -/
theorem C25_exact (P : Py) (R : Raises) (s s' : St) (name : String) (hr : ruleOf name = some .flag) (v : V) (e : Option Err)
    (h : set P R (.pos name [v] false) s = (e, s')) (hok : e = none ∨ e = some .observer) :
    ∃ w, s'.view P name = .ok w ∧ (truthy P w = false ↔
      s.env (envName name) = some [] ∨ s.env (envName name) = none ∧ truthy P v = false) ∧ ∀ t, v = .str t → (truthy P v = false ↔ t = []) := by
  have ht : ∀ t : List Char, truthy P (.str t) = false ↔ t = [] := by
    intro t; cases t <;> simp [truthy]
  have hv : ∀ t, v = .str t → (truthy P v = false ↔ t = []) := by
    rintro t rfl; exact ht t
  cases he : s.env (envName name) with
  | none =>
    obtain ⟨w, h1, h2, _⟩ := C16_set_get P R s s' name .flag v e hr he h hok
    refine ⟨w, h2, ?_, hv⟩
    simp only [Rule.apply, Option.some.injEq] at h1
    subst h1
    simp [truthy]
  | some t =>
    have henv : s'.env = s.env := by
      have hs : (set P R (.pos name [v] false) s).2.env = s.env := by
        rcases set_result P R (.pos name [v] false) s with ⟨_, _, h2⟩ | ⟨_, h2⟩
        · rw [h2]; exact (setTop_env _ _).1
        · rw [h2, (changedN_core ..).env]; exact (setTop_env _ _).1
      rw [h] at hs
      exact hs
    have := C17_variable_wins P s' name .flag t hr (by rw [henv, he])
    exact ⟨_, this, by rw [ht]; simp, hv⟩

/-- The variable holds "0", the option is set to False: it counts as on. -/
example (s' : St) (e : Option Err) (h : set py quiet (.pos "check-out-of-date-urls" [.bool false] false)
    { fresh with env := fun n => if n = envName "check-out-of-date-urls" then some "0".toList else none } = (e, s'))
    (hok : e = none ∨ e = some .observer) : ∃ w, s'.view py "check-out-of-date-urls" = .ok w ∧ truthy py w = true := by
  obtain ⟨w, h1, h2, _⟩ := C25_exact py quiet _ s' "check-out-of-date-urls" rfl (.bool false) e h hok
  refine ⟨w, h1, ?_⟩
  cases hw : truthy py w with
  | true => rfl
  | false => simp [h2] at hw

example : (set py quiet (.pos "check-out-of-date-urls" [.bool false] false)
    { fresh with env := fun n => if n = envName "check-out-of-date-urls" then some "0".toList else none }).1 = none := by decide +kernel

end Verif.Config
