import Verif.Config.Props4

/-!
# Properties: the configuration is a stack of pages (C157, C158)

The model of `Config.run` (config.py:231-240, 290-457, 500-574) against a machine that knows nothing of conversions, yaml paths, saving and
observers: a pile of pages, on each of which every option has the value it reads as.
-/

namespace Verif.Config
open Verif.Humanize

/-! ## Specification -/

/-- What each option reads as while no variable is set. -/
abbrev Page := String → Except Err V

/-- The pages of the temporary configurations, the innermost first, the page of the configuration proper, and the environment. -/
structure Book where
  pages : List Page
  base : Page
  env : Env

/-- The page in force. -/
def Book.top (b : Book) : Page := b.pages.headD b.base

def Book.put (b : Book) (p : Page) : Book :=
  match b.pages with
  | [] => { b with base := p }
  | _ :: ps => { b with pages := p :: ps }

/-- One entry of a page changed. -/
def Page.put (p : Page) (name : String) (w : V) : Page := fun m => if m = name then .ok w else p m

/-- One option, as its rule says. -/
def Page.write (P : Py) (p : Page) (name : String) (v : V) : Except Err Page :=
  match ruleOf name with
  | none => .error .key
  | some r =>
    match r.apply P v with
    | none => .error .value
    | some w => .ok (p.put name w)

/-- One after the other, to the first that is refused. -/
def Page.writeAll (P : Py) (p : Page) : List (String × V) → Option Err × Page
  | [] => (none, p)
  | (k, v) :: rest =>
    match p.write P k v with
    | .error e => (some e, p)
    | .ok p => Page.writeAll P p rest

/-- The option meant by a keyword. -/
def optionMeant (k : String) : String := String.ofList (k.toList.map (fun c => bif c == '_' then '-' else c))

/-- What the ways of calling `set` write. -/
def Page.request (P : Py) (p : Page) : Req → Option Err × Page
  | .kw [] => (some .assertion, p)
  | .kw kvs => p.writeAll P (kvs.map (fun kv => (optionMeant kv.1, kv.2)))
  | .dict kvs => p.writeAll P kvs
  | .pos name [v] false => p.writeAll P [(name, v)]
  | .pos name _ _ => (some (if (ruleOf name).isSome then .assertion else .key), p)

/-- The page with the default values. -/
def Page.default (P : Py) : Page := fun name =>
  match defaultReads P name with
  | some w => .ok w
  | none => .error .key

/-- A variable goes before the page. -/
def Book.read (P : Py) (b : Book) (name : String) : Except Err V :=
  match ruleOf name with
  | none => .error .key
  | some r =>
    match b.env (envName name) with
    | none => b.top name
    | some t =>
      match r.applyEnv P t with
      | some w => .ok w
      | none => .error .value

/-- A step: exception, book, what was read. -/
def Book.step (P : Py) (b : Book) : Act → Option Err × Book × List (String × V)
  | .set r => ((b.top.request P r).1, b.put (b.top.request P r).2, [])
  | .reset none => (none, b.put (Page.default P), [])
  | .reset (some n) =>
    match defaultReads P n with
    | none => (some .key, b, [])
    | some w => (none, b.put (b.top.put n w), [])
  | .get n =>
    match b.read P n with
    | .ok v => (none, b, [(n, v)])
    | .error e => (some e, b, [])
  | .autosave _ => (none, b, [])
  | .onChange _ => (none, b, [])
  | .setEnv n v => (none, { b with env := fun m => if m = n then v else b.env m }, [])

/-- The page a temporary configuration begins with. -/
def Book.first (P : Py) (b : Book) : Option Req → Option Err × Page
  | none => (none, b.top)
  | some r => b.top.request P r

/-- A program: a temporary configuration is a page put on top and taken away at the end, whatever the end. -/
def Book.play (P : Py) : Prog → Book → Option Err × Book × List (String × V)
  | .skip, b => (none, b, [])
  | .act a, b => b.step P a
  | .raise, b => (some .user, b, [])
  | .seq p q, b =>
    match Book.play P p b with
    | (some e, b, l) => (some e, b, l)
    | (none, b, l) => ((Book.play P q b).1, (Book.play P q b).2.1, l ++ (Book.play P q b).2.2)
  | .catch_ p q, b =>
    match Book.play P p b with
    | (none, b, l) => (none, b, l)
    | (some _, b, l) => ((Book.play P q b).1, (Book.play P q b).2.1, l ++ (Book.play P q b).2.2)
  | .temp r _ body, b =>
    match b.first P r with
    | (some e, _) => (some e, b, [])
    | (none, p) =>
      match Book.play P body { b with pages := p :: b.pages } with
      | (e, b, l) => (e, { b with pages := b.pages.tail }, l)

/-- What the user sees of a state of the configuration. -/
def bookOf (P : Py) (s : St) : Book := ⟨s.stack.map (fun c => getConf P (fun _ => none) c.conf), getConf P (fun _ => none) s.root.conf, s.env⟩

/-- What was read, in order. -/
def readsOf (log : List Event) : List (String × V) := log.filterMap (fun e => match e with | .got n v => some (n, v) | .called _ _ => none)

/-! ## Lemmas -/

theorem readsOf_append (a b : List Event) : readsOf (a ++ b) = readsOf a ++ readsOf b := by simp [readsOf]

theorem readsOf_called (os : List Nat) (c : Conf) : readsOf (os.map (fun o => .called o c)) = [] := by
  induction os with
  | nil => rfl
  | cons o os ih => simpa [readsOf] using ih

theorem book_core (P : Py) {s s' : St} (h : SameCore s s') : bookOf P s' = bookOf P s := by
  unfold bookOf
  rw [h.root, h.stack, h.env]

theorem book_setTop (P : Py) (s : St) (c : Conf) : bookOf P (s.setTop c) = (bookOf P s).put (getConf P (fun _ => none) c) := by
  unfold bookOf St.setTop Book.put
  cases h : s.stack with
  | nil => simp
  | cons t ts => simp

theorem book_top (P : Py) (s : St) : (bookOf P s).top = getConf P (fun _ => none) s.top.conf := by
  unfold bookOf Book.top St.top
  cases h : s.stack with
  | nil => simp
  | cons t ts => simp

theorem book_put_top (b : Book) : b.put b.top = b := by
  obtain ⟨ps, p, e⟩ := b
  cases ps with
  | nil => rfl
  | cons q ps => rfl

theorem page_put (P : Py) (c : Conf) (name : String) (r : Rule) (hr : ruleOf name = some r) (x w : V)
    (hw : ∀ o, option P name = some o → convert P o.getter o.noneOk x = .ok w) :
    getConf P (fun _ => none) (c.set name x) = Page.put (getConf P (fun _ => none) c) name w := by
  funext m
  unfold Page.put
  by_cases h : m = name
  · subst h
    rw [if_pos rfl]
    exact getConf_value P _ _ m r hr rfl x w (set_self c m x) hw
  · rw [if_neg h]
    exact getConf_other P _ _ _ m (set_other c name m x h)

theorem write_eq (P : Py) (c : Conf) (name : String) (v : V) :
    Page.write P (getConf P (fun _ => none) c) name v = (setOne P c name [v] false).map (getConf P (fun _ => none)) := by
  unfold Page.write
  cases hr : ruleOf name with
  | none => rw [setOne_unknown P c name hr]; rfl
  | some r =>
    have h := setOne_rule P c name r hr v
    cases ha : r.apply P v with
    | none => rw [ha] at h; simp only at h; rw [h]; simp only [ha, Except.map]
    | some w =>
      rw [ha] at h
      obtain ⟨x, hx, hw⟩ := h
      rw [hx]
      simp only [Except.map, ha]
      rw [page_put P c name r hr x w hw]

theorem writeAll_eq (P : Py) : ∀ (kvs : List (String × V)) (c : Conf),
    Page.writeAll P (getConf P (fun _ => none) c) kvs = ((setMany P c kvs).1, getConf P (fun _ => none) (setMany P c kvs).2) := by
  intro kvs
  induction kvs with
  | nil => intro c; rfl
  | cons kv kvs ih =>
    intro c
    obtain ⟨k, v⟩ := kv
    unfold Page.writeAll setMany
    rw [write_eq]
    cases setOne P c k [v] false with
    | error e => rfl
    | ok c' => exact ih c'

theorem meant_eq (k : String) : optionMeant k = dashed k := by
  unfold optionMeant dashed
  congr 1
  refine List.map_congr_left fun c _ => ?_
  by_cases h : c = '_'
  · simp [h]
  · rw [if_neg h, beq_eq_false_iff_ne.2 h]
    rfl

theorem request_eq (P : Py) (c : Conf) (r : Req) :
    Page.request P (getConf P (fun _ => none) c) r = ((applyReq P c r).1, getConf P (fun _ => none) (applyReq P c r).2.1) := by
  cases r with
  | kw kvs =>
    cases kvs with
    | nil => rfl
    | cons kv kvs =>
      rw [applyReq_kw P c (kv :: kvs) (by simp)]
      simp only [Page.request, meant_eq]
      exact writeAll_eq P _ c
  | dict kvs =>
    unfold Page.request applyReq
    simp only
    rw [writeAll_eq]
    generalize setMany P c kvs = x
    obtain ⟨e, c'⟩ := x
    cases e <;> rfl
  | pos name args kw =>
    have odd : ∀ (args : List V) (kw : Bool), (∀ v, args = [v] → kw = false → False) →
        applyReq P c (.pos name args kw) = (some (if (ruleOf name).isSome then .assertion else .key), c, 0) := by
      intro args kw h
      have : setOne P c name args kw = .error (if (ruleOf name).isSome then .assertion else .key) := by
        cases hr : ruleOf name with
        | none => rw [setOne_unknown P c name hr]; rfl
        | some r =>
          obtain ⟨o, ho, _⟩ := option_rule P name r hr
          unfold setOne
          rw [ho]
          match args, kw, h with
          | [], _, _ => rfl
          | [_], true, _ => rfl
          | [v], false, h => exact (h v rfl rfl).elim
          | _ :: _ :: _, _, _ => rfl
      simp only [applyReq, this]
    match args, kw with
    | [v], false =>
      have : applyReq P c (.pos name [v] false) = ((setMany P c [(name, v)]).1, (setMany P c [(name, v)]).2, if (setMany P c [(name, v)]).1 = none then 1 else 0) := by
        simp only [applyReq]
        unfold setMany
        rcases hs : setOne P c name [v] false with e | c' <;> simp [setMany]
      rw [this]
      exact writeAll_eq P _ c
    | [], _ => rw [odd _ _ (by simp)]; rfl
    | [_], true => rw [odd _ _ (by simp)]; rfl
    | _ :: _ :: _, _ => rw [odd _ _ (by simp)]; rfl

theorem read_eq (P : Py) (s : St) (n : String) : (bookOf P s).read P n = getConf P s.env s.top.conf n := by
  unfold Book.read
  cases hr : ruleOf n with
  | none =>
    unfold getConf
    rw [(option_none_iff P n).2 hr]
  | some r =>
    obtain ⟨o, ho, _⟩ := option_rule P n r hr
    have : (bookOf P s).env = s.env := rfl
    simp only [this]
    cases he : s.env (envName n) with
    | none =>
      simp only
      rw [book_top]
      unfold getConf
      rw [ho, he]
    | some t =>
      unfold getConf
      rw [ho, he]
      exact (convert_env P n r hr o ho t).symm

theorem defaultReads_iff (P : Py) (n : String) : (∃ w, defaultReads P n = some w) ↔ ∃ r, ruleOf n = some r := by
  unfold defaultReads ruleOf
  split <;> simp_all

theorem default_page (P : Py) (n : String) (r : Rule) (hr : ruleOf n = some r) (w : V) (hw : defaultReads P n = some w) (o : OptDef) (ho : option P n = some o) :
    convert P o.getter o.noneOk o.default = .ok w := by
  have h := default_reads P (fun _ => none) (DEFAULTS P) n r hr rfl (defaultOf_eq P n) w hw
  unfold getConf DEFAULTS at h
  rw [ho] at h
  exact h

theorem default_eq (P : Py) : getConf P (fun _ => none) (DEFAULTS P) = Page.default P := by
  funext n
  unfold Page.default
  cases hd : defaultReads P n with
  | some w =>
    obtain ⟨r, hr⟩ := (defaultReads_iff P n).1 ⟨w, hd⟩
    exact default_reads P _ _ n r hr rfl (defaultOf_eq P n) w hd
  | none =>
    have hr : ruleOf n = none := by
      cases hr : ruleOf n with
      | none => rfl
      | some r =>
        obtain ⟨w, hw⟩ := (defaultReads_iff P n).2 ⟨r, hr⟩
        rw [hw] at hd; cases hd
    unfold getConf
    rw [(option_none_iff P n).2 hr]

/-- Telling observers that do not raise changes nothing that can be read. -/
theorem notify_seen (P : Py) (R : Raises) (hR : ∀ o s, R o s = false) (s : St) :
    ∃ s', notify R s = (none, s') ∧ bookOf P s' = bookOf P s ∧ readsOf s'.log = readsOf s.log := by
  obtain ⟨s', h, hc⟩ := notify_quiet R hR s
  refine ⟨s', h, book_core P hc, ?_⟩
  rw [notifyL_log R _ _ _ h, readsOf_append, readsOf_called, List.append_nil]

theorem changed_seen (P : Py) (R : Raises) (hR : ∀ o s, R o s = false) (s : St) :
    ∃ s', changed P R s = (none, s') ∧ bookOf P s' = bookOf P s ∧ readsOf s'.log = readsOf s.log := by
  unfold changed
  obtain ⟨s', h1, h2, h3⟩ := notify_seen P R hR (if s.autosave then saveCfg P s.top s else s)
  refine ⟨s', h1, h2.trans ?_, h3.trans ?_⟩
  · split
    · exact book_core P (saveCfg_core P _ s)
    · rfl
  · split
    · rw [saveCfg_log]
    · rfl

theorem changedN_seen (P : Py) (R : Raises) (hR : ∀ o s, R o s = false) : ∀ (n : Nat) (s : St),
    ∃ s', changedN P R n s = (none, s') ∧ bookOf P s' = bookOf P s ∧ readsOf s'.log = readsOf s.log := by
  intro n
  induction n with
  | zero => intro s; exact ⟨s, rfl, rfl, rfl⟩
  | succ n ih =>
    intro s
    obtain ⟨s1, h1, h2, h3⟩ := changed_seen P R hR s
    obtain ⟨s2, g1, g2, g3⟩ := ih s1
    refine ⟨s2, ?_, g2.trans h2, g3.trans h3⟩
    unfold changedN
    rw [h1]
    exact g1

/-- The machine agrees with a run. -/
def Agrees (P : Py) (s : St) (x : Option Err × St) (y : Option Err × Book × List (String × V)) : Prop :=
  y = (x.1, bookOf P x.2, y.2.2) ∧ readsOf x.2.log = readsOf s.log ++ y.2.2

theorem agrees_mk (P : Py) (s s' : St) (e : Option Err) (l : List (String × V)) (b : Book) (hb : b = bookOf P s') (hl : readsOf s'.log = readsOf s.log ++ l) :
    Agrees P s (e, s') (e, b, l) := ⟨by rw [hb], hl⟩

theorem agrees_mk' (P : Py) (s : St) (x : Option Err × St) (y : Option Err × Book × List (String × V)) (h1 : y.1 = x.1) (h2 : y.2.1 = bookOf P x.2)
    (h3 : readsOf x.2.log = readsOf s.log ++ y.2.2) : Agrees P s x y := ⟨by rw [← h1, ← h2], h3⟩

theorem step_agrees (P : Py) (R : Raises) (hR : ∀ o s, R o s = false) (a : Act) (s : St) : Agrees P s (act P R a s) ((bookOf P s).step P a) := by
  cases a with
  | set r =>
    have hq := request_eq P s.top.conf r
    have hstep : (bookOf P s).step P (.set r) = ((applyReq P s.top.conf r).1, bookOf P (s.setTop (applyReq P s.top.conf r).2.1), []) := by
      show ((Page.request P (bookOf P s).top r).1, (bookOf P s).put (Page.request P (bookOf P s).top r).2, []) = _
      rw [book_top, hq, book_setTop]
    rw [hstep]
    show Agrees P s (set P R r s) _
    rcases set_result P R r s with ⟨e, h1, h2⟩ | ⟨h1, h2⟩
    · rw [h1, h2]
      exact agrees_mk P s _ _ _ _ rfl (by rw [(setTop_env _ _).2.2.1, List.append_nil])
    · obtain ⟨s', g1, g2, g3⟩ := changedN_seen P R hR (applyReq P s.top.conf r).2.2 (s.setTop (applyReq P s.top.conf r).2.1)
      rw [h1, h2, g1]
      exact agrees_mk P s _ _ _ _ g2.symm (by rw [g3, (setTop_env _ _).2.2.1, List.append_nil])
  | reset n =>
    show Agrees P s (reset P R n s) _
    cases n with
    | none =>
      obtain ⟨s', g1, g2, g3⟩ := changed_seen P R hR (s.setTop (DEFAULTS P))
      have : reset P R none s = (none, s') := g1
      rw [this]
      refine agrees_mk P s _ _ _ _ ?_ (by rw [g3, (setTop_env _ _).2.2.1, List.append_nil])
      rw [g2, book_setTop, default_eq]
    | some n =>
      unfold reset
      simp only [Book.step]
      cases hd : defaultReads P n with
      | none =>
        have hr : ruleOf n = none := by
          cases hr : ruleOf n with
          | none => rfl
          | some r =>
            obtain ⟨w, hw⟩ := (defaultReads_iff P n).2 ⟨r, hr⟩
            rw [hw] at hd; cases hd
        have : DEFAULTS P n = none := by unfold DEFAULTS; rw [(option_none_iff P n).2 hr]; rfl
        rw [this]
        exact agrees_mk P s _ _ _ _ rfl (by rw [List.append_nil])
      | some w =>
        obtain ⟨r, hr⟩ := (defaultReads_iff P n).1 ⟨w, hd⟩
        obtain ⟨o, ho, _⟩ := option_rule P n r hr
        have : DEFAULTS P n = some o.default := by unfold DEFAULTS; rw [ho]; rfl
        rw [this]
        simp only
        obtain ⟨s', g1, g2, g3⟩ := changed_seen P R hR (s.setTop ((s.top.conf.erase n).set n o.default))
        rw [g1]
        refine agrees_mk P s _ _ _ _ ?_ (by rw [g3, (setTop_env _ _).2.2.1, List.append_nil])
        have hpg : getConf P (fun _ => none) ((s.top.conf.erase n).set n o.default) = Page.put (getConf P (fun _ => none) s.top.conf) n w := by
          have h1 : (s.top.conf.erase n).set n o.default = s.top.conf.set n o.default := by
            funext m
            unfold Conf.set Conf.erase
            by_cases h : m = n <;> simp [h]
          rw [h1]
          exact page_put P _ n r hr _ w (fun o' ho' => by rw [ho] at ho'; cases ho'; exact default_page P n r hr w hd o ho)
        rw [g2, book_setTop, hpg, book_top]
  | get n =>
    unfold act Book.step
    simp only
    rw [read_eq]
    cases getConf P s.env s.top.conf n with
    | error e => exact agrees_mk P s _ _ _ _ rfl (by rw [List.append_nil])
    | ok v => exact agrees_mk P s _ _ _ _ rfl (by rw [readsOf_append]; rfl)
  | autosave b => exact agrees_mk P s _ _ _ _ rfl (by rw [List.append_nil])
  | onChange o => exact agrees_mk P s _ _ _ _ rfl (by rw [List.append_nil])
  | setEnv n v => exact agrees_mk P s _ _ _ _ rfl (by rw [List.append_nil])

theorem makeTemp_first (P : Py) (r : Option Req) (y : Option String) (s : St) :
    (∃ e p, makeTemp P r y s = (some e, p, s) ∧ ∃ q, (bookOf P s).first P r = (some e, q)) ∨
    ∃ c s1, makeTemp P r y s = (none, c, s1) ∧ (bookOf P s).first P r = (none, getConf P (fun _ => none) c.conf) ∧ bookOf P s1 = bookOf P s ∧ s1.log = s.log := by
  cases r with
  | none => exact .inr ⟨_, s, rfl, by simp only [Book.first, book_top], rfl, rfl⟩
  | some r =>
    have hq := request_eq P s.top.conf r
    have hf : (bookOf P s).first P (some r) = ((applyReq P s.top.conf r).1, getConf P (fun _ => none) (applyReq P s.top.conf r).2.1) := by
      show Page.request P (bookOf P s).top r = _
      rw [book_top, hq]
    rw [hf]
    unfold makeTemp
    simp only
    generalize applyReq P s.top.conf r = x
    obtain ⟨e, c, n⟩ := x
    cases e with
    | some e => exact .inl ⟨e, _, rfl, _, rfl⟩
    | none =>
      refine .inr ⟨_, _, rfl, rfl, ?_, ?_⟩
      · split
        · exact book_core P (saveCfg_core P _ s)
        · rfl
      · split
        · exact saveCfg_log P _ s
        · rfl

/-! ## Theorems -/

/-- Whatever a program does with the configuration (calls in any order, nested temporary configurations, exceptions caught or not, variables set and
removed in between), every `get` returns, every call raises and in the end every option reads what the book says, as long as no observer raises. -/
theorem C157_refines (P : Py) (R : Raises) (hR : ∀ o s, R o s = false) (p : Prog) : ∀ s : St, (run P R p s).1 = (Book.play P p (bookOf P s)).1 ∧
    bookOf P (run P R p s).2 = (Book.play P p (bookOf P s)).2.1 ∧ readsOf (run P R p s).2.log = readsOf s.log ++ (Book.play P p (bookOf P s)).2.2 := by
  suffices h : ∀ s : St, Agrees P s (run P R p s) (Book.play P p (bookOf P s)) by
    intro s
    obtain ⟨h1, h2⟩ := h s
    exact ⟨by rw [h1], by rw [h1], h2⟩
  induction p with
  | skip => intro s; exact agrees_mk P s _ _ _ _ rfl (by rw [List.append_nil])
  | act a => exact fun s => step_agrees P R hR a s
  | raise => intro s; exact agrees_mk P s _ _ _ _ rfl (by rw [List.append_nil])
  | seq p q ihp ihq =>
    intro s
    have hp := ihp s
    unfold run Book.play
    generalize run P R p s = x at hp
    generalize Book.play P p (bookOf P s) = y at hp
    obtain ⟨e, s1⟩ := x
    obtain ⟨e', b, l⟩ := y
    obtain ⟨h1, h2⟩ := hp
    simp only [Prod.mk.injEq, and_true] at h1
    obtain ⟨rfl, rfl⟩ := h1
    simp only at h2
    cases e' with
    | some e => exact agrees_mk P s _ _ _ _ rfl h2
    | none =>
      obtain ⟨g1, g2⟩ := ihq s1
      refine agrees_mk' P s (run P R q s1) _ ?_ ?_ ?_
      · simp only
        rw [g1]
      · simp only
        rw [g1]
      · simp only
        rw [g2, h2, List.append_assoc]
  | catch_ p q ihp ihq =>
    intro s
    have hp := ihp s
    unfold run Book.play
    generalize run P R p s = x at hp
    generalize Book.play P p (bookOf P s) = y at hp
    obtain ⟨e, s1⟩ := x
    obtain ⟨e', b, l⟩ := y
    obtain ⟨h1, h2⟩ := hp
    simp only [Prod.mk.injEq, and_true] at h1
    obtain ⟨rfl, rfl⟩ := h1
    simp only at h2
    cases e' with
    | none => exact agrees_mk P s _ _ _ _ rfl h2
    | some e =>
      obtain ⟨g1, g2⟩ := ihq s1
      refine agrees_mk' P s (run P R q s1) _ ?_ ?_ ?_
      · simp only
        rw [g1]
      · simp only
        rw [g1]
      · simp only
        rw [g2, h2, List.append_assoc]
  | temp r y body ih =>
    intro s
    unfold run Book.play
    rcases makeTemp_first P r y s with ⟨e, p, h1, q, h2⟩ | ⟨c, s1, h1, h2, h3, h4⟩
    · rw [h1, h2]
      exact agrees_mk P s _ _ _ _ rfl (by rw [List.append_nil])
    · rw [h1, h2]
      simp only
      obtain ⟨s2, k1, k2, k3⟩ := notify_seen P R hR { s1 with stack := c :: s1.stack }
      rw [k1]
      simp only
      have hbk : bookOf P s2 = { bookOf P s with pages := getConf P (fun _ => none) c.conf :: (bookOf P s).pages } := by
        rw [k2, ← h3]
        rfl
      have hb := ih s2
      rw [hbk] at hb
      generalize run P R body s2 = x at hb
      generalize Book.play P body { bookOf P s with pages := getConf P (fun _ => none) c.conf :: (bookOf P s).pages } = y at hb
      obtain ⟨e, s3⟩ := x
      obtain ⟨e', b, l⟩ := y
      obtain ⟨g1, g2⟩ := hb
      simp only [Prod.mk.injEq, and_true] at g1
      obtain ⟨rfl, rfl⟩ := g1
      simp only at g2
      obtain ⟨s4, m1, m2, m3⟩ := notify_seen P R hR { s3 with stack := s3.stack.tail }
      simp only
      rw [m1]
      refine agrees_mk P s _ _ _ _ ?_ ?_
      · rw [m2]
        simp only [bookOf, List.map_tail]
      · rw [m3, g2, k3]
        show readsOf s1.log ++ l = _
        rw [h4]

/-- What the page on the configuration shows for temporary configurations, for any option and values: outside, with a value set inside, with a value
given on entry; afterwards everything is as before. -/
theorem C158_temporary (P : Py) (R : Raises) (hR : ∀ o s, R o s = false) (s : St) (name : String) (r : Rule) (hr : ruleOf name = some r) (hv : s.noVar name)
    (x v a w b : V) (hx : s.view P name = .ok x) (ha : r.apply P v = some a) (hb : r.apply P w = some b) (p : Prog)
    (hp : p = .seq (.act (.get name)) (.seq (.temp none none (.seq (.act (.set (.pos name [v] false))) (.act (.get name))))
      (.temp (some (.pos name [w] false)) none (.act (.get name))))) :
    (run P R p s).1 = none ∧ readsOf (run P R p s).2.log = readsOf s.log ++ [(name, x), (name, a), (name, b)] ∧ ∀ m, (run P R p s).2.view P m = s.view P m := by
  obtain ⟨h1, h2, h3⟩ := C157_refines P R hR p s
  have hrd : (bookOf P s).read P name = .ok x := (read_eq P s name).trans hx
  have hv' : (bookOf P s).env (envName name) = none := hv
  have htop : (bookOf P s).top name = .ok x := by
    unfold Book.read at hrd
    rw [hr] at hrd
    simp only [hv'] at hrd
    exact hrd
  have hplay : Book.play P p (bookOf P s) = (none, bookOf P s, [(name, x), (name, a), (name, b)]) := by
    rw [hp]
    generalize bookOf P s = bk at hrd hv' htop
    obtain ⟨ps, q, en⟩ := bk
    simp only at hv'
    have htop' : ps.head?.getD q name = .ok x := by simpa [Book.top] using htop
    simp [Book.play, Book.step, Book.first, Book.read, Page.request, Page.writeAll, Page.write, Page.put, Book.put, hr, ha, hb, hv', htop', Book.top]
  rw [hplay] at h1 h2 h3
  refine ⟨h1, h3, fun m => ?_⟩
  simp only at h2
  unfold St.view
  rw [← read_eq, ← read_eq, h2]

/-- What it shows for a variable: it goes before the configuration, a value set meanwhile is kept, and read when the variable is gone. -/
theorem C158_variable (P : Py) (R : Raises) (hR : ∀ o s, R o s = false) (s : St) (name : String) (r : Rule) (hr : ruleOf name = some r)
    (t : List Char) (u v a : V) (hu : r.applyEnv P t = some u) (ha : r.apply P v = some a) (p : Prog)
    (hp : p = .seq (.act (.setEnv (envName name) (some t))) (.seq (.act (.get name)) (.seq (.act (.set (.pos name [v] false))) (.seq (.act (.get name))
      (.seq (.act (.setEnv (envName name) none)) (.act (.get name))))))) :
    (run P R p s).1 = none ∧ readsOf (run P R p s).2.log = readsOf s.log ++ [(name, u), (name, u), (name, a)] := by
  obtain ⟨h1, h2, h3⟩ := C157_refines P R hR p s
  have hplay : (Book.play P p (bookOf P s)).1 = none ∧ (Book.play P p (bookOf P s)).2.2 = [(name, u), (name, u), (name, a)] := by
    rw [hp]
    generalize bookOf P s = bk
    obtain ⟨ps, q, en⟩ := bk
    cases ps <;>
      simp [Book.play, Book.step, Book.read, Page.request, Page.writeAll, Page.write, Page.put, Book.put, hr, ha, hu, Book.top]
  exact ⟨h1.trans hplay.1, by rw [h3, hplay.2]⟩

/-- The page on the in-memory cache sets its policy to "user": this is refused in every state. -/
theorem C158_memory_page_refuted (P : Py) (R : Raises) (s : St) :
    set P R (.pos "weights-memory-cache-policy" [.str "user".toList] false) s = (some .value, s) := by
  have h := (C16_accepted P R s "weights-memory-cache-policy" (.str "user".toList)).1 _ rfl
  have h1 : (set P R (.pos "weights-memory-cache-policy" [.str "user".toList] false) s).1 = some .value := by
    rw [h]
    simp only [Rule.apply, P.strOf_str]
    decide
  have h2 : set P R (.pos "weights-memory-cache-policy" [.str "user".toList] false) s =
      (some .value, (set P R (.pos "weights-memory-cache-policy" [.str "user".toList] false) s).2) := Prod.ext h1 rfl
  have h3 := C18_single_partial P R s _ _ _ _ _ h2 (by decide)
  rw [h2, h3]

/-! ## Examples -/

/-- `C157_refines`: what a program with nested blocks and an exception reads, without running the model. -/
example : readsOf (run py quiet (.seq (.catch_ (.temp (some (.kw [("cache_policy", .str "off".toList)])) none
    (.seq (.temp none none (.act (.get "cache-policy"))) (.seq (.act (.reset (some "cache-policy"))) (.seq (.act (.get "cache-policy")) .raise)))) .skip)
    (.seq (.act (.set (.dict [("cache-policy", .str "temporary".toList)]))) (.act (.get "cache-policy")))) fresh).2.log =
    [("cache-policy", .str "off".toList), ("cache-policy", .str "user".toList), ("cache-policy", .str "temporary".toList)] := by
  rw [(C157_refines py quiet (fun _ _ => rfl) _ fresh).2.2]
  decide +kernel

/-- `C158_temporary`: the page itself. -/
example : ∃ p, readsOf (run py quiet p fresh).2.log = [("url-download-timeout", .int 30), ("url-download-timeout", .int 5), ("url-download-timeout", .int 11)] :=
  ⟨_, (C158_temporary py quiet (fun _ _ => rfl) fresh "url-download-timeout" _ rfl rfl (.int 30) (.int 5) (.int 5) (.int 11) (.int 11) (by decide +kernel)
    (by decide +kernel) (by decide +kernel) _ rfl).2.1⟩

/-- `C158_variable`: the page itself. -/
example : ∃ p, readsOf (run py quiet p fresh).2.log = [("url-download-timeout", .int 5), ("url-download-timeout", .int 5), ("url-download-timeout", .int 10)] :=
  ⟨_, (C158_variable py quiet (fun _ _ => rfl) fresh "url-download-timeout" _ rfl "5".toList (.int 5) (.int 10) (.int 10) (by decide +kernel)
    (by decide +kernel) _ rfl).2⟩

end Verif.Config
