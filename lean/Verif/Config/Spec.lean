import Verif.Config.Model

/-! Specification vocabulary for the configuration, written without the conversion functions of the model: the documented
options and the documented rule for each. -/

namespace Verif.Config
open Verif.Humanize

inductive Rule where
  /-- on/off -/
  | flag
  /-- any text -/
  | text
  /-- text or None -/
  | path
  /-- one of the listed texts -/
  | oneOf (l : List (List Char))
  /-- a number with an optional unit; `noneOk`: or None -/
  | number (units : List (Char × Nat)) (noneOk : Bool)

/-- The documented options. -/
def ruleOf : String → Option Rule
  | "user-cache-directory" => some .text
  | "temporary-cache-directory-root" => some .path
  | "temporary-directory-root" => some .path
  | "cache-policy" => some (.oneOf ["off".toList, "temporary".toList, "user".toList])
  | "maximum-cache-size" => some (.number byteUnits true)
  | "maximum-cache-disk-usage" => some (.number percentUnits true)
  | "url-download-timeout" => some (.number secondUnits false)
  | "check-out-of-date-urls" => some .flag
  | "download-out-of-date-urls" => some .flag
  | "maximum-weights-memory-cache-size" => some (.number byteUnits true)
  | "weights-memory-cache-policy" => some (.oneOf ["off".toList, "unlimited".toList, "largest".toList, "lru".toList])
  | "weights-memory-cache-strict-mode" => some .flag
  | _ => none

/-- The documented defaults. -/
def defaultOf (P : Py) : String → Option V
  | "user-cache-directory" => some (.str (P.home ++ "/.cache/earthkit-regrid".toList))
  | "temporary-cache-directory-root" => some .none
  | "temporary-directory-root" => some .none
  | "cache-policy" => some (.str "user".toList)
  | "maximum-cache-size" => some (.str "5GB".toList)
  | "maximum-cache-disk-usage" => some .none
  | "url-download-timeout" => some (.str "30s".toList)
  | "check-out-of-date-urls" => some (.bool false)
  | "download-out-of-date-urls" => some (.bool false)
  | "maximum-weights-memory-cache-size" => some (.str "500MB".toList)
  | "weights-memory-cache-policy" => some (.str "largest".toList)
  | "weights-memory-cache-strict-mode" => some (.bool false)
  | _ => none

/-- The number meant by a text, if any (`Humanize.asNumber` is proved against the grammar in C26). -/
def numberOf (P : Py) (units : List (Char × Nat)) (t : List Char) : Option V :=
  match asNumber P.C units false (some t) with
  | .ok (some n) => some (.int n)
  | _ => none

/-- What an option set to `v` reads as; `none`: refused. -/
def Rule.apply (P : Py) : Rule → V → Option V
  | .flag, v => some (.bool (truthy P v))
  | .text, v => some (.str (P.strOf v))
  | .path, v => if v = .none then some .none else some (.str (P.strOf v))
  | .oneOf l, v => if P.strOf v ∈ l then some (.str (P.strOf v)) else none
  | .number units noneOk, v => if v = .none ∧ noneOk = true then some .none else numberOf P units (P.strOf v)

/-- What an environment variable with text `t` reads as; flags and choices are passed on as text, unchecked. -/
def Rule.applyEnv (P : Py) : Rule → List Char → Option V
  | .flag, t => some (.str t)
  | .text, t => some (.str t)
  | .path, t => some (.str t)
  | .oneOf _, t => some (.str t)
  | .number units _, t => numberOf P units t

/-- What `get` gives for every name: the observable configuration. -/
def St.view (P : Py) (s : St) : String → Except Err V := getConf P s.env s.top.conf

/-- The program never passes `config_yaml = p` to `temporary`. -/
def Prog.avoids (p : String) : Prog → Prop
  | .temp _ y b => y ≠ some p ∧ b.avoids p
  | .seq a b => a.avoids p ∧ b.avoids p
  | .catch_ a b => a.avoids p ∧ b.avoids p
  | _ => True

/-- The program does not touch the environment. -/
def Prog.noEnv : Prog → Prop
  | .act (.setEnv _ _) => False
  | .temp _ _ b => b.noEnv
  | .seq a b => a.noEnv ∧ b.noEnv
  | .catch_ a b => a.noEnv ∧ b.noEnv
  | _ => True

/-- The option is documented and its rule takes the value. -/
def Acceptable (P : Py) (name : String) (v : V) : Prop := ∃ r w, ruleOf name = some r ∧ r.apply P v = some w

/-- The spelling of an option name as a python keyword. -/
def keywordName (name : String) : String := String.ofList (name.toList.map (fun c => if c = '-' then '_' else c))

/-- A state without a variable for the option. -/
def St.noVar (s : St) (name : String) : Prop := s.env (envName name) = none

/-- The program does not read the configuration (so it runs the same in any environment). -/
def Prog.noGet : Prog → Prop
  | .act (.get _) => False
  | .temp _ _ b => b.noGet
  | .seq a b => a.noGet ∧ b.noGet
  | .catch_ a b => a.noGet ∧ b.noGet
  | _ => True

def cachePolicies : List (List Char) := ["off".toList, "temporary".toList, "user".toList]
def weightsPolicies : List (List Char) := ["off".toList, "unlimited".toList, "largest".toList, "lru".toList]

/-- Reads recorded in a log, of one of the two policies, gave a documented value. -/
def GoodReads (log : List Event) : Prop :=
  ∀ v, (.got "cache-policy" v ∈ log → ∃ t ∈ cachePolicies, v = .str t) ∧
    (.got "weights-memory-cache-policy" v ∈ log → ∃ t ∈ weightsPolicies, v = .str t)

/-- What a process sees that opens the file while `save_config` (config.py:253-279) has written `n` entries: the file is opened
for writing first, which empties it, and readers take no lock. -/
def midSave (P : Py) (c : Conf) (n : Nat) : File := (dump P c).take n

end Verif.Config
