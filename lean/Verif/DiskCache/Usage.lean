import Verif.DiskCache.Table

/-!
# Model: how full the disk is — caching.py:40-76, 492-511

The bytes in use on the disk of the cache are those of the files of the cache and `others`: everything else on that disk and what is
reserved for the system (`total - avail`). A file is taken to use as many bytes of the disk as `os.path.getsize` says (no rounding to
blocks). The floats of `DiskUsage.percent` are exact.
-/

namespace Verif.DiskCache

/-- Bytes of all files of the cache. -/
def diskBytes (s : St) : Nat := (s.files.map (fun f => f.2.size)).sum

/-- `DiskUsage.percent` — caching.py:66: `int(float(total - avail) / float(total) * 100 + 0.5)`; `none`: ZeroDivisionError. -/
def diskPercent (total avail : Nat) : Option Nat :=
  if total = 0 then none else some ((200 * (total - avail) + total) / (2 * total))

/-- `disk_usage(directory)` — caching.py:40-76 -/
def diskUsage (others total : Nat) (s : St) : Option Disk :=
  (diskPercent total (total - (others + diskBytes s))).map (fun p => ⟨p, total⟩)

inductive Trouble where
  | cache (x : Err)
  | zeroDivision
  deriving DecidableEq, Repr

/-- The relative limit, the disk being looked at — caching.py:502-511 -/
def usageNow (e : Env) (t : Nat) (usage : Option Nat) (others total : Nat) (s : St) : Except Trouble Unit × St :=
  match usage with
  | none => (.ok (), s)
  | some u =>
    match diskUsage others total s with
    | none => (.error .zeroDivision, s)
    | some disk =>
      match checkUsage e t (some u) disk s with
      | (.error x, s) => (.error (.cache x), s)
      | (.ok _, s) => (.ok (), s)

/-- `_check_cache_size` — caching.py:492-511: the disk is looked at after the absolute limit has been dealt with. -/
def checkNow (e : Env) (t : Nat) (limit usage : Option Nat) (others total : Nat) (s : St) : Except Trouble Unit × St :=
  match checkMax e t limit s with
  | (.error x, s) => (.error (.cache x), s)
  | (.ok _, s) => usageNow e t usage others total s

end Verif.DiskCache
