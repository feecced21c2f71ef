import Verif.Json.Lemmas
import Verif.MemCache.Props
import Mathlib.Data.List.Lex
import Mathlib.Data.Char

/-!
Property theorems about keys and file names made of canonical JSON text (C15, C59).
The digest is a parameter; collisions are excluded only for the two texts at hand.
-/

namespace Verif.Json

/-- The digest function does not collide on these two texts. -/
def NoCollision (sha : List Char → List Char) (a b : List Char) : Prop := sha a = sha b → a = b

/-- The canonical texts of two values are equal iff they are the same JSON value. -/
theorem C15_text_iff_same_value (a b : J) (ha : WF a) (hb : WF b) : dumps a = dumps b ↔ JEq a b :=
  dumps_eq_iff a b ha hb

/-- C15: two lookups use the same slot iff input gridspec, output gridspec and method are the same. -/
theorem C15_same_slot_iff_same_request (sha : List Char → List Char) (gin gout gin' gout' : J) (m m' : List Char)
    (h1 : WF gin) (h2 : WF gout) (h3 : WF gin') (h4 : WF gout')
    (hs : NoCollision sha (dumps (.tuple [gin, gout, .str m])) (dumps (.tuple [gin', gout', .str m']))) :
    lookupKey sha gin gout m = lookupKey sha gin' gout' m' ↔ JEq gin gin' ∧ JEq gout gout' ∧ m = m' := by
  have hw : WF (.tuple [gin, gout, .str m]) := ⟨h1, h2, trivial, trivial⟩
  have hw' : WF (.tuple [gin', gout', .str m']) := ⟨h3, h4, trivial, trivial⟩
  constructor
  · intro h
    have h' := (dumps_eq_iff _ _ hw hw').1 (hs h)
    cases h' with
    | tt h =>
      cases h with
      | cons e1 h =>
        cases h with
        | cons e2 h =>
          cases h with
          | cons e3 h =>
            cases e3
            exact ⟨e1, e2, rfl⟩
  · rintro ⟨e1, e2, rfl⟩
    show sha (dumps _) = sha (dumps _)
    rw [(dumps_eq_iff _ _ hw hw').2 (.tt (.cons e1 (.cons e2 (.cons (.str m) .nil))))]

namespace Demo

/-- `{"grid": [5, 5.0], "type": "regular_ll"}` -/
def a : J := .obj [("grid".toList, .list [.int 5, .float "5.0".toList]), ("type".toList, .str "regular_ll".toList)]
/-- the same with the items the other way round and a tuple -/
def b : J := .obj [("type".toList, .str "regular_ll".toList), ("grid".toList, .tuple [.int 5, .float "5.0".toList])]
/-- a different grid -/
def c : J := .obj [("type".toList, .str "regular_ll".toList), ("grid".toList, .tuple [.int 5, .int 5])]

theorem wf5 : FloatRepr "5.0".toList := ⟨by decide, ⟨'5', ['.', '0'], rfl, Or.inl (by decide)⟩, '.', by decide, Or.inl rfl⟩
theorem wfa : WF a := ⟨by decide, ⟨trivial, wf5, trivial⟩, trivial, trivial⟩
theorem wfb : WF b := ⟨by decide, trivial, ⟨trivial, wf5, trivial⟩, trivial⟩
theorem wfc : WF c := ⟨by decide, trivial, ⟨trivial, trivial, trivial⟩, trivial⟩

end Demo

example : dumps Demo.a = "{\"grid\": [5, 5.0], \"type\": \"regular_ll\"}".toList := by decide +kernel
example : JEq Demo.a Demo.b := (dumps_eq_iff _ _ Demo.wfa Demo.wfb).1 (by decide +kernel)
example : ¬ JEq Demo.a Demo.c := fun h => absurd ((dumps_eq_iff _ _ Demo.wfa Demo.wfc).2 h) (by decide +kernel)
/-- `C15_text_iff_same_value`: order and tuples do not matter, 5 and 5.0 are apart. -/
example : dumps Demo.a = dumps Demo.b ∧ dumps Demo.a ≠ dumps Demo.c :=
  ⟨(C15_text_iff_same_value _ _ Demo.wfa Demo.wfb).2 ((dumps_eq_iff _ _ Demo.wfa Demo.wfb).1 (by decide +kernel)),
    fun h => absurd ((C15_text_iff_same_value _ _ Demo.wfa Demo.wfc).1 h)
      (fun h => absurd ((dumps_eq_iff _ _ Demo.wfa Demo.wfc).2 h) (by decide +kernel))⟩
/-- `C15_same_slot_iff_same_request`: the method counts. -/
example : lookupKey id Demo.a Demo.c "linear".toList ≠ lookupKey id Demo.b Demo.c "nn".toList := fun h =>
  absurd ((C15_same_slot_iff_same_request id Demo.a Demo.c Demo.b Demo.c _ _ Demo.wfa Demo.wfc Demo.wfb Demo.wfc (fun h => h)).1 h).2.2 (by decide)
example : dumps (.str ['a', '"', '\\', 'é', Char.ofNat 0x1F600, Char.ofNat 8]) =
    "\"a\\\"\\\\\\u00e9\\ud83d\\ude00\\b\"".toList := by decide +kernel
example : dumps (.int (-120)) = "-120".toList := by decide +kernel

/-! ### the in-memory cache with its real key -/

/-- A request as it reaches the cache. -/
structure Req where
  gin : J
  gout : J
  method : List Char
  wfIn : WF gin
  wfOut : WF gout

def Req.key (sha : List Char → List Char) (r : Req) : List Char := lookupKey sha r.gin r.gout r.method

/-- C15 with C03: if the inventory answers the same JSON request the same way and the digest has no collision, then
through every history the cached lookup of a request returns what the uncached lookup of that very request returns. -/
theorem C15_cache_keyed_by_request {W S : Type} (sha : List Char → List Char)
    (hsha : ∀ r r' : Req, NoCollision sha (dumps (.tuple [r.gin, r.gout, .str r.method]))
      (dumps (.tuple [r'.gin, r'.gout, .str r'.method])))
    (sizeFn : W → Nat) (src : MemCache.Source Req W S)
    (hsrc : ∀ r r' : Req, JEq r.gin r'.gin → JEq r.gout r'.gout → r.method = r'.method → src.create r = src.create r')
    (ops : List (MemCache.Op Req W S)) (hs : MemCache.OnlySource src ops) (r : Req) (d : Option W × Option S)
    (hok : (MemCache.get (Req.key sha) sizeFn src r
      (MemCache.run (Req.key sha) sizeFn MemCache.initial ops)).1.res = .ok d) :
    src.create r = .ok d := by
  refine MemCache.C03_cached_result_is_uncached_result (Req.key sha) sizeFn src ops hs r ?_ d hok
  intro q _ h
  obtain ⟨h1, h2, h3⟩ := (C15_same_slot_iff_same_request sha _ _ _ _ _ _ q.wfIn q.wfOut r.wfIn r.wfOut
    (hsha q r)).1 h
  exact hsrc q r h1 h2 h3

/-- The hypotheses can be met: identity digest, an inventory that looks at the method only. -/
example : ∃ (src : MemCache.Source Req Nat Unit), (∀ r r' : Req, JEq r.gin r'.gin → JEq r.gout r'.gout →
    r.method = r'.method → src.create r = src.create r') ∧
    src.create ⟨Demo.a, Demo.c, "linear".toList, Demo.wfa, Demo.wfc⟩ = .ok (some 6, some ()) := by
  refine ⟨⟨fun r => .ok (some ⟨none, r.method.length⟩), fun e => .ok (e.map (·.tag), some ())⟩, ?_, by decide +kernel⟩
  intro r r' _ _ h
  simp [MemCache.Source.create, h]
example : ∀ a b, NoCollision id a b := fun _ _ h => h

/-! ### C59 -/

/-- `str.lower` on ascii text. -/
def asciiLower (s : List Char) : List Char := s.map Char.toLower

/-- Owners have no dash (the code uses `url` and `regrid`), arguments are list-like or a dict, extra hash data any
JSON value. -/
structure FileReq.Ok (r : FileReq) : Prop where
  owner : '-' ∉ asciiLower r.owner
  args : WF r.args
  argsListLike : (∃ xs, r.args = .list xs) ∨ (∃ xs, r.args = .tuple xs) ∨ (∃ fs, r.args = .obj fs)
  extra : WF r.hashExtra

/-- The text that is hashed — caching.py:983-987. -/
def hashed (r : FileReq) : List Char :=
  r.owner ++ dumps r.args ++ dumps r.hashExtra ++ dumps (.str r.extension)

theorem dash_split (a b x y : List Char) (ha : '-' ∉ a) (hb : '-' ∉ b) (h : a ++ '-' :: x = b ++ '-' :: y) :
    a = b ∧ x = y := by
  induction a generalizing b with
  | nil =>
    cases b with
    | nil => simpa using h
    | cons d b =>
      simp only [List.nil_append, List.cons_append, List.cons.injEq] at h
      exact absurd (by rw [← h.1]; simp) hb
  | cons c a ih =>
    cases b with
    | nil =>
      simp only [List.nil_append, List.cons_append, List.cons.injEq] at h
      exact absurd (by rw [h.1]; simp) ha
    | cons d b =>
      simp only [List.cons_append, List.cons.injEq] at h
      obtain ⟨h1, h2⟩ := ih b (fun h => ha (by simp [h])) (fun h => hb (by simp [h])) h.2
      exact ⟨by rw [h.1, h1], h2⟩

/-- C59: two disk-cache requests get the same file name iff owner, arguments, extra hash data and extension are the
same. The digest has a fixed length and does not collide on the two hashed texts. -/
theorem C59_same_file_iff_same_request (sha : List Char → List Char) (r r' : FileReq) (h : r.Ok) (h' : r'.Ok)
    (hlen : (sha (hashed r)).length = (sha (hashed r')).length) (hs : NoCollision sha (hashed r) (hashed r')) :
    fileName asciiLower sha r = fileName asciiLower sha r' ↔
      r.owner = r'.owner ∧ JEq r.args r'.args ∧ JEq r.hashExtra r'.hashExtra ∧ r.extension = r'.extension := by
  constructor
  · intro he
    unfold fileName at he
    obtain ⟨h1, h2⟩ := dash_split _ _ _ _ h.owner h'.owner he
    have h3 := List.append_inj h2 hlen
    have h4 := hs h3.1
    unfold hashed at h4
    have hol : r.owner.length = r'.owner.length := by
      have := congrArg List.length h1
      simpa [asciiLower] using this
    simp only [List.append_assoc] at h4
    obtain ⟨h5, h6⟩ := List.append_inj h4 hol
    have hk : ∀ r : FileReq, r.Ok → kind (canon r.args) ≠ 0 := by
      intro r h
      rcases h.argsListLike with ⟨x, e⟩ | ⟨x, e⟩ | ⟨x, e⟩ <;> rw [e] <;> simp [canon, kind]
    obtain ⟨h7, h8⟩ := dumps_prefix _ _ _ _ h.args h'.args (fun e => absurd e (hk r h)) (fun e => absurd e (hk r' h')) h6
    have hd : ∀ e : List Char, Delim (dumps (.str e)) := by
      intro e c t hc
      simp only [dumps, canon, text, quote, List.cons.injEq] at hc
      rw [← hc.1]; decide
    obtain ⟨h9, _⟩ := dumps_prefix _ _ _ _ h.extra h'.extra (fun _ => hd _) (fun _ => hd _) h8
    exact ⟨h5, h7, h9, h3.2⟩
  · rintro ⟨e1, e2, e3, e4⟩
    unfold fileName
    rw [e1, e4, (dumps_eq_iff _ _ h.args h'.args).2 e2, (dumps_eq_iff _ _ h.extra h'.extra).2 e3]

example : (⟨"url".toList, .list [.str "http://x".toList, .int 1], .null, ".cache".toList⟩ : FileReq).Ok :=
  ⟨by decide, ⟨trivial, trivial, trivial⟩, Or.inl ⟨_, rfl⟩, trivial⟩

/-- The restriction to list-like arguments is needed: the texts are hashed one after the other without a separator, so
argument 1 with extra data 23 and argument 12 with extra data 3 share a file whatever the digest is. -/
theorem C59_bare_number_arguments_refuted : ∃ r r' : FileReq,
    ¬ JEq r.args r'.args ∧ r.owner = r'.owner ∧ r.extension = r'.extension ∧
      ∀ sha lower, fileName lower sha r = fileName lower sha r' := by
  refine ⟨⟨"url".toList, .int 1, .int 23, ".x".toList⟩, ⟨"url".toList, .int 12, .int 3, ".x".toList⟩, ?_, rfl, rfl, ?_⟩
  · intro h; cases h
  · intro sha lower
    have : ("url".toList ++ dumps (.int 1) ++ dumps (.int 23) ++ dumps (.str ".x".toList)) =
        ("url".toList ++ dumps (.int 12) ++ dumps (.int 3) ++ dumps (.str ".x".toList)) := by decide +kernel
    simp only [fileName]
    rw [this]

end Verif.Json
