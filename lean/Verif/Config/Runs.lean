import Verif.Config.Lemmas
import Verif.Humanize.Lemmas

/-! What any program can do to the configuration: facts by induction over programs. -/

namespace Verif.Config
open Verif.Humanize

/-! ### Which objects a program touches -/

/-- From `s` to `s'` only the visible object changed its items, and `extra` objects of failed entries were left on top. -/
def Frame (s s' : St) : Prop :=
  ∃ c extra, s'.root = (s.setTop c).root ∧ s'.stack = extra ++ (s.setTop c).stack ∧
    s'.failedEntries = s.failedEntries + extra.length

theorem Frame.of_core {s s' : St} (h : SameCore s s') : Frame s s' :=
  ⟨s.top.conf, [], by rw [setTop_top]; exact h.root, by rw [setTop_top]; exact h.stack, by simp [h.failed]⟩

theorem Frame.refl (s : St) : Frame s s := .of_core (.refl s)

theorem setTop_cases (s : St) (c : Conf) :
    (s.stack = [] ∧ (s.setTop c).root = ⟨c, s.root.yaml⟩ ∧ (s.setTop c).stack = []) ∨
    ∃ t ts, s.stack = t :: ts ∧ (s.setTop c).root = s.root ∧ (s.setTop c).stack = ⟨c, t.yaml⟩ :: ts := by
  unfold St.setTop
  cases h : s.stack with
  | nil => left; simp
  | cons t ts => right; exact ⟨t, ts, rfl, rfl, rfl⟩

theorem setTop_congr (a b : St) (x y : Conf) (h1 : b.root = (a.setTop x).root) (h2 : b.stack = (a.setTop x).stack) :
    (b.setTop y).root = (a.setTop y).root ∧ (b.setTop y).stack = (a.setTop y).stack := by
  unfold St.setTop at *
  cases h : a.stack with
  | nil => rw [h] at h1 h2; simp only at h1 h2; simp [h1, h2]
  | cons t ts => rw [h] at h1 h2; simp only at h1 h2; simp [h1, h2]

theorem Frame.trans {a b c : St} (h : Frame a b) (h' : Frame b c) : Frame a c := by
  obtain ⟨x, e, h1, h2, h3⟩ := h
  obtain ⟨y, e', h4, h5, h6⟩ := h'
  cases e with
  | nil =>
    obtain ⟨k1, k2⟩ := setTop_congr a b x y h1 (by simpa using h2)
    exact ⟨y, e', by rw [h4, k1], by rw [h5, k2], by simpa [h3] using h6⟩
  | cons u us =>
    have k : (b.setTop y).root = b.root ∧ (b.setTop y).stack = ⟨y, u.yaml⟩ :: (us ++ (a.setTop x).stack) := by
      rw [List.cons_append] at h2
      simp [St.setTop, h2]
    refine ⟨x, e' ++ ⟨y, u.yaml⟩ :: us, by rw [h4, k.1, h1], by rw [h5, k.2]; simp, ?_⟩
    rw [h6, h3]; simp; omega

theorem Frame.setTop (s : St) (c : Conf) : Frame s (s.setTop c) :=
  ⟨c, [], rfl, rfl, by unfold St.setTop; split <;> simp⟩

theorem set_frame (P : Py) (R : Raises) (r : Req) (s : St) : Frame s (set P R r s).2 := by
  unfold set
  split
  · exact .setTop _ _
  · exact (Frame.setTop _ _).trans (.of_core (changedN_core _ _ _ _))

theorem reset_frame (P : Py) (R : Raises) (n : Option String) (s : St) : Frame s (reset P R n s).2 := by
  unfold reset
  split
  · exact (Frame.setTop _ _).trans (.of_core (changed_core _ _ _))
  · split
    · exact .refl s
    · exact (Frame.setTop _ _).trans (.of_core (changed_core _ _ _))

theorem act_frame (P : Py) (R : Raises) (a : Act) (s : St) : Frame s (act P R a s).2 := by
  have hid : ∀ s' : St, s'.root = s.root → s'.stack = s.stack → s'.failedEntries = s.failedEntries → Frame s s' := by
    intro s' h1 h2 h3
    exact ⟨s.top.conf, [], by rw [setTop_top]; exact h1, by rw [setTop_top]; simpa using h2, by simpa using h3⟩
  cases a with
  | set r => exact set_frame P R r s
  | reset n => exact reset_frame P R n s
  | get n =>
    unfold act
    simp only
    split
    · exact hid _ rfl rfl rfl
    · exact .refl s
  | autosave b => exact hid _ rfl rfl rfl
  | onChange o => exact hid _ rfl rfl rfl
  | setEnv n v => exact hid _ rfl rfl rfl

theorem makeTemp_core (P : Py) (r : Option Req) (y : Option String) (s : St) : SameCore s (makeTemp P r y s).2.2 := by
  unfold makeTemp
  split
  · exact .refl s
  · split
    · exact .refl s
    · simp only
      split
      · exact saveCfg_core P _ s
      · exact .refl s

theorem makeTemp_yaml (P : Py) (r : Option Req) (y : Option String) (s : St) : (makeTemp P r y s).2.1.yaml = y := by
  unfold makeTemp
  split
  · rfl
  · split <;> rfl

/-- Popping one object off a framed stack that was pushed on `s`. -/
theorem pop_frame (s : St) (t : Cfg) (s1 s2 : St) (h0 : SameCore s s1) (h : Frame { s1 with stack := t :: s1.stack } s2) :
    Frame s { s2 with stack := s2.stack.tail } := by
  obtain ⟨c, e, h1, h2, h3⟩ := h
  simp only [St.setTop] at h1 h2 h3
  cases e with
  | nil =>
    refine ⟨s.top.conf, [], ?_, ?_, ?_⟩
    · rw [setTop_top]; simp only; rw [h1, h0.root]
    · rw [setTop_top]; simp [h2, h0.stack]
    · simp only [h3, h0.failed, List.length_nil]
  | cons u us =>
    refine ⟨s.top.conf, us ++ [⟨c, t.yaml⟩], ?_, ?_, ?_⟩
    · rw [setTop_top]; simp only; rw [h1, h0.root]
    · rw [setTop_top]; simp [h2, h0.stack]
    · simp only [h3, h0.failed]; simp

theorem run_frame (P : Py) (R : Raises) (p : Prog) (s : St) : Frame s (run P R p s).2 := by
  induction p generalizing s with
  | skip => exact .refl s
  | act a => exact act_frame P R a s
  | seq p q ihp ihq =>
    unfold run
    have := ihp s
    generalize run P R p s = x at *
    obtain ⟨e, s'⟩ := x
    cases e with
    | some e => exact this
    | none => exact this.trans (ihq s')
  | raise => exact .refl s
  | catch_ p q ihp ihq =>
    unfold run
    have := ihp s
    generalize run P R p s = x at *
    obtain ⟨e, s'⟩ := x
    cases e with
    | some e => exact this.trans (ihq s')
    | none => exact this
  | temp r y b ih =>
    unfold run
    have hm := makeTemp_core P r y s
    generalize makeTemp P r y s = m at *
    obtain ⟨e, t, s1⟩ := m
    cases e with
    | some e => exact .of_core hm
    | none =>
      simp only
      have hn := (notifyL_core R s1.callbacks { s1 with stack := t :: s1.stack }).1
      unfold notify
      simp only at hm hn ⊢
      generalize notifyL R s1.callbacks { s1 with stack := t :: s1.stack } = n at *
      obtain ⟨e, s2⟩ := n
      cases e with
      | some e =>
        refine ⟨s.top.conf, [t], ?_, ?_, ?_⟩
        · rw [setTop_top]; simp only; rw [hn.root]; exact hm.root
        · rw [setTop_top]; simp only; rw [hn.stack]; simp [hm.stack]
        · simp only; rw [hn.failed]; simp [hm.failed]
      | none =>
        have hb := ih s2
        simp only
        generalize run P R b s2 = z at *
        obtain ⟨e, s3⟩ := z
        simp only at hb ⊢
        have hp := pop_frame s t s1 s3 hm ((Frame.of_core hn).trans hb)
        have hx := (notifyL_core R s3.callbacks { s3 with stack := s3.stack.tail }).1
        generalize notifyL R s3.callbacks { s3 with stack := s3.stack.tail } = w at *
        obtain ⟨e', s4⟩ := w
        cases e' with
        | some e' => exact hp.trans (.of_core hx)
        | none => exact hp.trans (.of_core hx)

/-- The fixed parts. -/
theorem setTop_env (s : St) (c : Conf) : (s.setTop c).env = s.env ∧ (s.setTop c).callbacks = s.callbacks ∧
    (s.setTop c).log = s.log ∧ (s.setTop c).files = s.files ∧ (s.setTop c).autosave = s.autosave ∧
    (s.setTop c).writable = s.writable := by
  unfold St.setTop
  split <;> exact ⟨rfl, rfl, rfl, rfl, rfl, rfl⟩

/-! ### A rule for proving invariants of programs

`I` is an invariant of states; the lemmas to show are about the elementary steps. -/

structure Stable (P : Py) (R : Raises) (I : St → Prop) (ok : Act → Prop) (okT : Option Req → Option String → Prop) : Prop where
  act : ∀ a s, ok a → I s → I (act P R a s).2
  push : ∀ r y s, okT r y → I s → (makeTemp P r y s).1 = none →
    I { (makeTemp P r y s).2.2 with stack := (makeTemp P r y s).2.1 :: (makeTemp P r y s).2.2.stack }
  pop : ∀ s, I s → I { s with stack := s.stack.tail }
  notify : ∀ os s, I s → I (notifyL R os s).2
  failed : ∀ s n, I s → I { s with failedEntries := n }

def Prog.all (ok : Act → Prop) (okT : Option Req → Option String → Prop) : Prog → Prop
  | .skip => True
  | .act a => ok a
  | .seq p q => p.all ok okT ∧ q.all ok okT
  | .raise => True
  | .catch_ p q => p.all ok okT ∧ q.all ok okT
  | .temp r y b => okT r y ∧ b.all ok okT

theorem makeTemp_err (P : Py) (r : Option Req) (y : Option String) (s : St) (e : Err) (h : (makeTemp P r y s).1 = some e) :
    (makeTemp P r y s).2.2 = s := by
  unfold makeTemp at *
  cases r with
  | none => rfl
  | some r =>
    simp only at h ⊢
    generalize applyReq P s.top.conf r = x at *
    obtain ⟨e, c, n⟩ := x
    cases e with
    | none => cases h
    | some e => rfl

theorem Stable.run {P : Py} {R : Raises} {I : St → Prop} {ok : Act → Prop} {okT : Option Req → Option String → Prop}
    (S : Stable P R I ok okT) (p : Prog) (hp : p.all ok okT) (s : St) (hs : I s) : I (run P R p s).2 := by
  induction p generalizing s with
  | skip => exact hs
  | act a => exact S.act a s hp hs
  | raise => exact hs
  | seq p q ihp ihq =>
    unfold Config.run
    have := ihp hp.1 s hs
    generalize Config.run P R p s = x at *
    obtain ⟨e, s'⟩ := x
    cases e with
    | some e => exact this
    | none => exact ihq hp.2 s' this
  | catch_ p q ihp ihq =>
    unfold Config.run
    have := ihp hp.1 s hs
    generalize Config.run P R p s = x at *
    obtain ⟨e, s'⟩ := x
    cases e with
    | some e => exact ihq hp.2 s' this
    | none => exact this
  | temp r y b ih =>
    unfold Config.run
    have hm := S.push r y s hp.1 hs
    have he := makeTemp_err P r y s
    generalize makeTemp P r y s = m at *
    obtain ⟨e, t, s1⟩ := m
    cases e with
    | some e => simp only; rw [show s1 = s from he e rfl]; exact hs
    | none =>
      simp only
      have hn := S.notify s1.callbacks _ (hm rfl)
      unfold Config.notify
      simp only at hn ⊢
      generalize notifyL R s1.callbacks { s1 with stack := t :: s1.stack } = n at *
      obtain ⟨e, s2⟩ := n
      cases e with
      | some e => exact S.failed s2 _ hn
      | none =>
        have hb := ih hp.2 s2 hn
        simp only
        generalize Config.run P R b s2 = z at *
        obtain ⟨e, s3⟩ := z
        have hx := S.notify s3.callbacks _ (S.pop s3 hb)
        simp only
        generalize notifyL R s3.callbacks { s3 with stack := s3.stack.tail } = w at *
        obtain ⟨e', s4⟩ := w
        cases e' with
        | some e' => exact hx
        | none => exact hx

/-! ### Values of the options -/

/-- The items hold a value the option's rule accepts. -/
def Typed (P : Py) (c : Conf) : Prop :=
  ∀ name r, ruleOf name = some r → ∃ v w, c name = some v ∧ r.apply P v = some w ∧
    (∀ o, option P name = some o → convert P o.getter o.noneOk v = .ok w) ∧
    (match r with
      | .flag => ∃ b, v = .bool b
      | _ => True)

theorem setOne_typed (P : Py) (c c' : Conf) (name : String) (args : List V) (kw : Bool) (hc : Typed P c)
    (h : setOne P c name args kw = .ok c') : Typed P c' := by
  obtain ⟨r, v, w, x, h1, rfl, rfl, h4, rfl, h6⟩ := setOne_ok P c c' name args kw h
  intro n r' hr'
  by_cases hn : n = name
  · subst hn
    rw [h1] at hr'; cases hr'
    obtain ⟨o, ho, _, hr⟩ := option_rule P n r h1
    have h6 := h6 o ho
    have hx : setOne P c n [v] false = (do
      let v ← convertIn P o v
      validate o v
      return c.set n v) := by unfold setOne; rw [ho]
    rw [hx] at h
    refine ⟨x, w, set_self _ _ _, ?_, ?_, ?_⟩
    · cases r with
      | flag =>
        obtain ⟨g1, g2, g3⟩ := hr
        have : x = .bool (truthy P v) := by
          simp [convertIn, g1, g2, validate, g3, bind, Except.bind, pure, Except.pure] at h
          have := congrFun h n
          rw [set_self, set_self] at this; exact (Option.some.inj this).symm
        subst this
        simp [Rule.apply, truthy] at h4 ⊢; exact h4
      | text =>
        obtain ⟨g1, g2, g3⟩ := hr
        have : x = .str (P.strOf v) := by
          simp [convertIn, g1, g2, validate, g3, bind, Except.bind, pure, Except.pure] at h
          have := congrFun h n
          rw [set_self, set_self] at this; exact (Option.some.inj this).symm
        subst this
        simp [Rule.apply, P.strOf_str] at h4 ⊢; exact h4
      | path =>
        obtain ⟨g1, g2, g3⟩ := hr
        simp [g1, g2, convert] at h6
        simp only [Rule.apply]
        split at h6 <;> simp_all
      | oneOf l =>
        obtain ⟨g1, g2, g3⟩ := hr
        simp [g2, convert] at h6
        subst h6
        simp only [Rule.apply] at h4 ⊢
        split at h4
        · simp at h4; subst h4; simp [P.strOf_str]; assumption
        · cases h4
      | number u nn =>
        obtain ⟨g, g1, g2, g3, g4⟩ := hr
        rw [g1, g2, convert_number P g nn u x g4] at h6
        show (if x = .none ∧ nn = true then some V.none else numberOf P u (P.strOf x)) = some w
        generalize (if x = .none ∧ nn = true then some V.none else numberOf P u (P.strOf x)) = z at *
        cases z with
        | none => cases h6
        | some z => simp at h6; rw [h6]
    · intro o' ho'; rw [ho] at ho'; cases ho'; exact h6
    · cases r with
      | flag =>
        obtain ⟨g1, g2, g3⟩ := hr
        simp [g2, convert] at h6
        simp [Rule.apply] at h4
        exact ⟨_, h6.trans h4.symm⟩
      | _ => trivial
  · obtain ⟨v', w', k1, k2⟩ := hc n r' hr'
    exact ⟨v', w', by rw [set_other _ _ _ _ hn]; exact k1, k2⟩

theorem setMany_typed (P : Py) (kvs : List (String × V)) (c : Conf) (hc : Typed P c) : Typed P (setMany P c kvs).2 := by
  induction kvs generalizing c with
  | nil => exact hc
  | cons kv kvs ih =>
    obtain ⟨k, v⟩ := kv
    unfold setMany
    cases h : setOne P c k [v] false with
    | error e => exact hc
    | ok c' => exact ih c' (setOne_typed P c c' k _ _ hc h)

theorem applyReq_typed (P : Py) (c : Conf) (r : Req) (hc : Typed P c) : Typed P (applyReq P c r).2.1 := by
  cases r with
  | kw kvs =>
    cases kvs with
    | nil => exact hc
    | cons kv kvs =>
      unfold applyReq
      have := setMany_typed P ((kv :: kvs).map (fun p => (dashed p.1, p.2))) c hc
      simp only
      generalize setMany P c ((kv :: kvs).map (fun p => (dashed p.1, p.2))) = x at *
      obtain ⟨e, c'⟩ := x
      cases e <;> exact this
  | dict kvs =>
    unfold applyReq
    have := setMany_typed P kvs c hc
    simp only
    generalize setMany P c kvs = x at *
    obtain ⟨e, c'⟩ := x
    cases e <;> exact this
  | pos name args kw =>
    unfold applyReq
    simp only
    cases h : setOne P c name args kw with
    | error e => exact hc
    | ok c' => exact setOne_typed P c c' name _ _ hc h

/-- The laws of text the defaults rely on: "5GB" and the others are numbers. -/
structure Py.Sane (P : Py) : Prop where
  gb : (numberOf P byteUnits "5GB".toList).isSome
  mb : (numberOf P byteUnits "500MB".toList).isSome
  sec : (numberOf P secondUnits "30s".toList).isSome

theorem numberOf_denotes (P : Py) (u : List (Char × Nat)) (t : List Char) (n : Nat) (h : Denotes P.C (lookupUnit u) t n) :
    numberOf P u t = some (.int n) := by
  unfold numberOf
  rw [(asNumber_ok_iff P.C u false t (some n)).2 ⟨n, rfl, h⟩]

theorem numberOf_5GB (P : Py) : numberOf P byteUnits "5GB".toList = some (.int 5368709120) := by
  refine numberOf_denotes P _ _ 5368709120 ⟨['5'], ['G', 'B'], ⟨⟨[], [], [], rfl, ?_, ?_, ?_, ?_⟩, ?_, by simp, ?_⟩, Or.inr ⟨'G', ['B'], 1024 ^ 3, rfl, by decide, ?_⟩⟩
  · intro c hc; simp at hc
  · intro c hc; simp at hc
  · intro c hc; simp at hc
  · rintro _ x r h; cases h; exact (P.C.ascii_letter 6 (by decide)).2.1
  · intro c hc; simp at hc; subst hc; exact (P.C.ascii_digit 5 (by decide)).1
  · intro c hc
    simp at hc
    rcases hc with rfl | rfl
    · simp [show P.C.isWord 'G' = true from (P.C.ascii_letter 6 (by decide)).1]
    · simp [show P.C.isWord 'B' = true from (P.C.ascii_letter 1 (by decide)).1]
  · simp [decVal, show P.C.digitVal '5' = 5 from (P.C.ascii_digit 5 (by decide)).2]

theorem numberOf_500MB (P : Py) : numberOf P byteUnits "500MB".toList = some (.int 524288000) := by
  refine numberOf_denotes P _ _ 524288000 ⟨['5', '0', '0'], ['M', 'B'], ⟨⟨[], [], [], rfl, ?_, ?_, ?_, ?_⟩, ?_, by simp, ?_⟩, Or.inr ⟨'M', ['B'], 1024 ^ 2, rfl, by decide, ?_⟩⟩
  · intro c hc; simp at hc
  · intro c hc; simp at hc
  · intro c hc; simp at hc
  · rintro _ x r h; cases h; exact (P.C.ascii_letter 12 (by decide)).2.1
  · intro c hc
    simp at hc
    rcases hc with rfl | rfl
    · exact (P.C.ascii_digit 5 (by decide)).1
    · exact (P.C.ascii_digit 0 (by decide)).1
  · intro c hc
    simp at hc
    rcases hc with rfl | rfl
    · simp [show P.C.isWord 'M' = true from (P.C.ascii_letter 12 (by decide)).1]
    · simp [show P.C.isWord 'B' = true from (P.C.ascii_letter 1 (by decide)).1]
  · simp [decVal, show P.C.digitVal '5' = 5 from (P.C.ascii_digit 5 (by decide)).2,
      show P.C.digitVal '0' = 0 from (P.C.ascii_digit 0 (by decide)).2]

theorem numberOf_30s (P : Py) : numberOf P secondUnits "30s".toList = some (.int 30) := by
  refine numberOf_denotes P _ _ 30 ⟨['3', '0'], ['s'], ⟨⟨[], [], [], rfl, ?_, ?_, ?_, ?_⟩, ?_, by simp, ?_⟩, Or.inr ⟨'s', [], 1, rfl, by decide, ?_⟩⟩
  · intro c hc; simp at hc
  · intro c hc; simp at hc
  · intro c hc; simp at hc
  · rintro _ x r h; cases h; exact (P.C.ascii_letter 18 (by decide)).2.2.2
  · intro c hc
    simp at hc
    rcases hc with rfl | rfl
    · exact (P.C.ascii_digit 3 (by decide)).1
    · exact (P.C.ascii_digit 0 (by decide)).1
  · intro c hc
    simp at hc
    subst hc
    simp [show P.C.isWord 's' = true from (P.C.ascii_letter 18 (by decide)).2.2.1]
  · simp [decVal, show P.C.digitVal '3' = 3 from (P.C.ascii_digit 3 (by decide)).2,
      show P.C.digitVal '0' = 0 from (P.C.ascii_digit 0 (by decide)).2]

theorem sane (P : Py) : P.Sane :=
  ⟨by rw [numberOf_5GB]; rfl, by rw [numberOf_500MB]; rfl, by rw [numberOf_30s]; rfl⟩

theorem default_shape (P : Py) (hP : P.Sane) (name : String) (r : Rule) (hr : ruleOf name = some r) (d : V)
    (hd : defaultOf P name = some d) :
    (∃ w, r.apply P d = some w) ∧ (match r with
      | .flag => ∃ b, d = .bool b
      | .text => ∃ t, d = .str t
      | .oneOf l => ∃ t ∈ l, d = .str t
      | _ => True) := by
  have hnum : ∀ u b t, (numberOf P u t).isSome → ∃ w, (Rule.number u b).apply P (.str t) = some w := by
    intro u b t h3
    obtain ⟨w, hw⟩ := Option.isSome_iff_exists.1 h3
    refine ⟨w, ?_⟩
    show (if V.str t = .none ∧ b = true then some V.none else numberOf P u (P.strOf (.str t))) = some w
    rw [if_neg (by simp), P.strOf_str, hw]
  have hone : ∀ l t, t ∈ l → ∃ w, (Rule.oneOf l).apply P (.str t) = some w := by
    intro l t h
    refine ⟨.str t, ?_⟩
    show (if P.strOf (.str t) ∈ l then some (V.str (P.strOf (.str t))) else none) = _
    rw [P.strOf_str, if_pos h]
  unfold ruleOf at hr
  split at hr
  all_goals first | (cases hr; done) | skip
  all_goals injection hr with hr
  all_goals subst hr
  all_goals simp only [defaultOf, Option.some.injEq] at hd
  all_goals subst hd
  · exact ⟨⟨_, rfl⟩, _, rfl⟩
  · exact ⟨⟨.none, rfl⟩, trivial⟩
  · exact ⟨⟨.none, rfl⟩, trivial⟩
  · exact ⟨hone _ _ (by simp), _, by simp, rfl⟩
  · exact ⟨hnum _ _ _ hP.gb, trivial⟩
  · exact ⟨⟨.none, rfl⟩, trivial⟩
  · exact ⟨hnum _ _ _ hP.sec, trivial⟩
  · exact ⟨⟨_, rfl⟩, _, rfl⟩
  · exact ⟨⟨_, rfl⟩, _, rfl⟩
  · exact ⟨hnum _ _ _ hP.mb, trivial⟩
  · exact ⟨hone _ _ (by simp), _, by simp, rfl⟩
  · exact ⟨⟨_, rfl⟩, _, rfl⟩

theorem defaults_typed (P : Py) : Typed P (DEFAULTS P) := by
  intro name r hr
  obtain ⟨o, ho, hd, hrr⟩ := option_rule P name r hr
  have hD : DEFAULTS P name = some o.default := by rw [defaultOf_eq, hd]
  have hap := default_shape P (sane P) name r hr o.default hd
  obtain ⟨⟨w, hw⟩, hshape⟩ := hap
  refine ⟨o.default, w, hD, hw, ?_, ?_⟩
  · intro o' ho'; rw [ho] at ho'; cases ho'
    cases r with
    | flag =>
      obtain ⟨b, hb⟩ := hshape
      obtain ⟨g1, g2, g3⟩ := hrr
      rw [hb] at hw ⊢; rw [g2]; simp [Rule.apply, truthy] at hw; simp [convert, hw]
    | text =>
      obtain ⟨b, hb⟩ := hshape
      obtain ⟨g1, g2, g3⟩ := hrr
      rw [hb] at hw ⊢; rw [g2]; simp [Rule.apply, P.strOf_str] at hw; simp [convert, hw]
    | path =>
      obtain ⟨g1, g2, g3⟩ := hrr
      rw [g1, g2]
      simp only [Rule.apply] at hw
      simp only [convert, and_true]
      split at hw <;> simp_all
    | oneOf l =>
      obtain ⟨b, hb, hb'⟩ := hshape
      obtain ⟨g1, g2, g3⟩ := hrr
      rw [hb'] at hw ⊢; rw [g2]; simp [Rule.apply, P.strOf_str, hb] at hw; simp [convert, hw]
    | number u n =>
      obtain ⟨g, g1, g2, g3, g4⟩ := hrr
      rw [g1, g2, convert_number P g n u _ g4]
      have hw : (if o.default = .none ∧ n = true then some V.none else numberOf P u (P.strOf o.default)) = some w := hw
      rw [hw]
  · cases r with
    | flag => exact hshape
    | _ => trivial

/-- Every object holds acceptable values. -/
def St.Typed (P : Py) (s : St) : Prop := Config.Typed P s.root.conf ∧ ∀ t ∈ s.stack, Config.Typed P t.conf

theorem St.Typed.top {P : Py} {s : St} (h : s.Typed P) : Config.Typed P s.top.conf := by
  unfold St.top
  cases hs : s.stack with
  | nil => exact h.1
  | cons t ts => exact h.2 t (by simp [hs])

theorem St.Typed.setTop {P : Py} {s : St} (h : s.Typed P) {c : Conf} (hc : Config.Typed P c) : (s.setTop c).Typed P := by
  unfold St.setTop
  cases hs : s.stack with
  | nil => exact ⟨hc, by simp⟩
  | cons t ts =>
    refine ⟨h.1, ?_⟩
    intro u hu
    rcases List.mem_cons.1 hu with rfl | hu
    · exact hc
    · exact h.2 u (by rw [hs]; exact List.mem_cons_of_mem _ hu)

theorem St.Typed.core {P : Py} {s s' : St} (h : s.Typed P) (hc : SameCore s s') : s'.Typed P :=
  ⟨by rw [hc.root]; exact h.1, by rw [hc.stack]; exact h.2⟩

theorem typed_stable (P : Py) (R : Raises) : Stable P R (St.Typed P) (fun _ => True) (fun _ _ => True) where
  act a s _ h := by
    cases a with
    | set r =>
      show (set P R r s).2.Typed P
      unfold set
      have := applyReq_typed P s.top.conf r h.top
      generalize applyReq P s.top.conf r = x at *
      obtain ⟨e, c, n⟩ := x
      cases e with
      | some e => exact h.setTop this
      | none => exact (h.setTop this).core (changedN_core _ _ _ _)
    | reset n =>
      show (reset P R n s).2.Typed P
      have hd := defaults_typed P
      unfold reset
      split
      · exact (h.setTop hd).core (changed_core _ _ _)
      · split
        · exact h
        · rename_i n _ v hv
          refine (h.setTop ?_).core (changed_core _ _ _)
          intro m r hr
          by_cases hm : m = n
          · subst hm
            obtain ⟨v', w, h1, h2⟩ := hd m r hr
            rw [hv] at h1; cases h1
            exact ⟨v, w, by simp [Conf.set], h2⟩
          · obtain ⟨v', w, h1, h2⟩ := h.top m r hr
            exact ⟨v', w, by simp [Conf.set, Conf.erase, hm, h1], h2⟩
    | get n =>
      simp only [act]
      split <;> exact h
    | autosave b => exact h
    | onChange o => exact h
    | setEnv n v => exact h
  push r y s _ h hok := by
    have hc := makeTemp_core P r y s
    have : Config.Typed P (makeTemp P r y s).2.1.conf := by
      unfold makeTemp
      cases r with
      | none => exact h.top
      | some r =>
        have := applyReq_typed P s.top.conf r h.top
        simp only
        generalize applyReq P s.top.conf r = x at *
        obtain ⟨e, c, n⟩ := x
        cases e <;> exact this
    refine ⟨?_, ?_⟩
    · simp only; rw [hc.root]; exact h.1
    · intro t ht
      rcases List.mem_cons.1 ht with rfl | ht
      · exact this
      · rw [hc.stack] at ht; exact h.2 t ht
  pop s h := ⟨h.1, fun t ht => h.2 t (List.mem_of_mem_tail ht)⟩
  notify os s h := h.core (notifyL_core R os s).1
  failed s n h := h

/-! ### The log only grows -/

theorem changed_log_prefix (P : Py) (R : Raises) (s : St) : s.log <+: (changed P R s).2.log := by
  unfold changed notify
  split
  · have := notifyL_log_prefix R (saveCfg P s.top s).callbacks (saveCfg P s.top s)
    rwa [saveCfg_log] at this
  · exact notifyL_log_prefix R _ _

theorem changedN_log_prefix (P : Py) (R : Raises) (n : Nat) (s : St) : s.log <+: (changedN P R n s).2.log := by
  induction n generalizing s with
  | zero => exact List.prefix_rfl
  | succ n ih =>
    unfold changedN
    have := changed_log_prefix P R s
    generalize changed P R s = x at *
    obtain ⟨e, s'⟩ := x
    cases e with
    | some e => exact this
    | none => exact this.trans (ih s')

theorem log_stable (P : Py) (R : Raises) (l : List Event) :
    Stable P R (fun s => l <+: s.log) (fun _ => True) (fun _ _ => True) where
  act a s _ h := by
    cases a with
    | set r =>
      show _ <+: (set P R r s).2.log
      unfold set
      split
      · simp only; rw [(setTop_env _ _).2.2.1]; exact h
      · refine h.trans ?_
        rename_i c n _
        have := changedN_log_prefix P R n (s.setTop c)
        rwa [(setTop_env _ _).2.2.1] at this
    | reset n =>
      show _ <+: (reset P R n s).2.log
      unfold reset
      split
      · have := changed_log_prefix P R (s.setTop (DEFAULTS P))
        rw [(setTop_env _ _).2.2.1] at this
        exact h.trans this
      · split
        · exact h
        · rename_i n _ v hv
          have := changed_log_prefix P R (s.setTop ((s.top.conf.erase n).set n v))
          rw [(setTop_env _ _).2.2.1] at this
          exact h.trans this
    | get n =>
      simp only [act]
      split
      · exact h.trans (List.prefix_append _ _)
      · exact h
    | autosave b => exact h
    | onChange o => exact h
    | setEnv n v => exact h
  push r y s _ h hok := by
    have : (makeTemp P r y s).2.2.log = s.log := by
      unfold makeTemp
      split
      · rfl
      · split
        · rfl
        · simp only; split
          · exact saveCfg_log P _ s
          · rfl
    simp only; rw [this]; exact h
  pop s h := h
  notify os s h := h.trans (notifyL_log_prefix R os s)
  failed s n h := h

theorem Prog.all_true (p : Prog) : p.all (fun _ => True) (fun _ _ => True) := by
  induction p with
  | skip => trivial
  | act a => trivial
  | raise => trivial
  | seq p q h1 h2 => exact ⟨h1, h2⟩
  | catch_ p q h1 h2 => exact ⟨h1, h2⟩
  | temp r y b h => exact ⟨trivial, h⟩

theorem run_log_prefix (P : Py) (R : Raises) (p : Prog) (s : St) : s.log <+: (run P R p s).2.log :=
  (log_stable P R s.log).run p p.all_true s List.prefix_rfl

theorem run_typed (P : Py) (R : Raises) (p : Prog) (s : St) (h : s.Typed P) : (run P R p s).2.Typed P :=
  (typed_stable P R).run p p.all_true s h

/-! ### Saving and loading -/

theorem foldl_dump (P : Py) (c c0 : Conf) (l : List String) (hl : l.Nodup) (k : String) :
    ((l.filterMap (dumpOne P c)).foldl (fun c e => Conf.set c e.1 e.2) c0) k =
      if k ∈ l then (match dumpOne P c k with | some e => some e.2 | none => c0 k) else c0 k := by
  have hkey : ∀ m e, dumpOne P c m = some e → e.1 = m := by
    intro m e he
    unfold dumpOne at he
    split at he
    · split at he
      · cases he
      · cases he; rfl
    · cases he
  induction l generalizing c0 with
  | nil => simp
  | cons m ms ih =>
    have hn := List.nodup_cons.1 hl
    rw [List.filterMap_cons]
    cases hm : dumpOne P c m with
    | none =>
      simp only
      rw [ih c0 hn.2]
      by_cases hk : k = m
      · subst hk; simp [hn.1, hm]
      · simp [hk]
    | some e =>
      simp only [List.foldl_cons]
      rw [ih _ hn.2]
      have he := hkey m e hm
      by_cases hk : k = m
      · subst hk; simp [hn.1, hm, Conf.set, he]
      · simp [hk, Conf.set, he]

theorem sorted_nodup : SORTED.Nodup := by decide +kernel

theorem sorted_mem (name : String) (r : Rule) (h : ruleOf name = some r) : name ∈ SORTED := by
  unfold ruleOf at h
  split at h <;> first | cases h; done | (simp [SORTED])

theorem foldl_dump_version (P : Py) (c c0 : Conf) (k : String) (hk : k ≠ "version") :
    ((dump P c).foldl (fun c e => Conf.set c e.1 e.2) c0) k =
      if k ∈ SORTED then (match dumpOne P c k with | some e => some e.2 | none => c0 k) else c0 k := by
  unfold dump
  rw [List.foldl_append]
  simp only [List.foldl_cons, List.foldl_nil]
  rw [set_other _ _ _ _ hk, foldl_dump P c c0 SORTED sorted_nodup]

/-- What is saved and loaded again is what was there, for values the file can hold. -/
theorem load_dump (P : Py) (c : Conf) (hc : Typed P c) (hs : ∀ name r v, ruleOf name = some r → c name = some v → safe P v = true)
    (name : String) (r : Rule) (hr : ruleOf name = some r) : (load P (some (dump P c))).1 name = c name := by
  have hall : (dump P c).all (fun e => safe P e.2) = true := by
    rw [List.all_eq_true]
    intro e he
    unfold dump at he
    rcases List.mem_append.1 he with he | he
    · obtain ⟨m, hm, hm'⟩ := List.mem_filterMap.1 he
      unfold dumpOne at hm'
      split at hm'
      · split at hm'
        · cases hm'
        · rename_i o v ho hv _
          cases hm'
          cases hrm : ruleOf m with
          | none => rw [(option_none_iff P m).2 hrm] at ho; cases ho
          | some r => exact hs m r v hrm hv
      · cases hm'
    · simp at he; subst he; rfl
  have hv : name ≠ "version" := by rintro rfl; simp [ruleOf] at hr
  unfold load
  simp only [hall, if_true]
  rw [foldl_dump_version P c _ name hv, if_pos (sorted_mem name r hr)]
  obtain ⟨o, ho, hd, hrr⟩ := option_rule P name r hr
  obtain ⟨v, w, h1, h2, h3, h4⟩ := hc name r hr
  unfold dumpOne
  rw [ho, h1]
  simp only
  split
  · rename_i e he
    split at he
    · cases he
    · cases he; rfl
  · rename_i he
    split at he
    · rename_i heq
      rw [defaultOf_eq, hd]
      congr 1
      symm
      have hdef : r = .flag → ∃ b, o.default = .bool b := by
        rintro rfl
        unfold ruleOf at hr
        split at hr <;> (try cases hr) <;> (cases ho; exact ⟨_, rfl⟩)
      have hdef' : r ≠ .flag → (∀ b, o.default ≠ .bool b) ∧ (∀ b, o.default ≠ .int b) := by
        intro hrf
        unfold ruleOf at hr
        split at hr <;> (try cases hr) <;> first | (exact absurd rfl hrf) | (cases ho; exact ⟨by simp, by simp⟩)
      by_cases hrf : r = .flag
      · subst hrf
        obtain ⟨b, rfl⟩ := h4
        obtain ⟨b', hb'⟩ := hdef rfl
        rw [hb'] at heq ⊢
        unfold pyEq at heq
        simpa using heq
      · obtain ⟨k1, k2⟩ := hdef' hrf
        generalize o.default = d at *
        unfold pyEq at heq
        split at heq
        · exact absurd rfl (k2 _)
        · exact absurd rfl (k1 _)
        · simpa using heq
    · cases he

end Verif.Config
