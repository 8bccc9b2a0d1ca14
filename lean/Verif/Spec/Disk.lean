import Verif.Model.Disk

/-! What `filepath.Glob` answers on a disk (C88). -/

namespace Verif

/-- The pattern `pre*.csv` matches the path: `*` stands for any text without a slash. (The prefix is meant to have none of the
special characters of a pattern.) -/
def CsvMatch (pre p : GoStr) : Prop := ∃ mid, p = pre ++ (mid ++ b!".csv") ∧ 47 ∉ mid

/-- The files of the disk that match the pattern `pre*.csv`, as `filepath.Glob` and `os.Stat` report them, possibly with
directories among them: every one once, in any order. -/
def Disk.Globs (d : Disk) (pre : GoStr) (found : List (GoStr × Option Bool)) : Prop :=
  (∀ x ∈ found, x.2.isSome) ∧ (found.map (·.1)).Nodup ∧
    ∀ p, (p, some true) ∈ found ↔ (d p).isSome ∧ CsvMatch pre p

end Verif
