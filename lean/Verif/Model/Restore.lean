import Verif.Model.Assets
import Verif.Model.Cli

/-!
# Model of `RestoreAsset` and `RestoreAssets` of gengokit/template/template.go

The operating system may refuse any operation, depending on those before. Simplification: permissions and times are not modelled
(they are the same for all files of a build).
-/

namespace Baron.Assets

open Baron.Start (clean joinPath)

/-- os and ioutil: what is asked of the operating system. -/
inductive Op where
  /-- `os.MkdirAll`: of this directory. -/
  | mkdirAll (path : Str)
  /-- `ioutil.WriteFile`: of this path, with this text. -/
  | writeFile (path : Str) (text : Str)
  /-- `os.Chtimes`: of this path. -/
  | chtimes (path : Str)
  deriving DecidableEq

/-- What is returned that is not nil. -/
inductive Failure where
  /-- template.go:293 "Asset … not found". -/
  | notFound (name : Str)
  /-- An error of the operating system. -/
  | os (msg : Str)
  deriving DecidableEq

/-- What the operating system does with an operation after others: it may report an error. -/
abbrev OS := List Op → Op → Option Str

/-- The operations so far, and what was returned. -/
abbrev Result := List Op × Option Failure

/-- `filepath.Join` (Unix) of any parts. -/
def joinAll (parts : List Str) : Str := match parts.dropWhile (· = []) with
  | [] => []
  | l => clean (join '/' l)

/-- template.go:490-493 `_filePath`. -/
def filePath (dir name : Str) : Str := joinAll (dir :: split '/' (canonical name))

/-- template.go:453-471 `RestoreAsset`. `AssetInfo` finds what `Asset` finds, `Asset` has no other error. -/
def restoreAsset (os : OS) (dir name : Str) (done : List Op) : Result := match asset name with
  | none => (done, some (.notFound name))
  | some data =>
    let a := Op.mkdirAll (filePath dir (Cli.dir name))
    match os done a with
    | some e => (done ++ [a], some (.os e))
    | none =>
      let b := Op.writeFile (filePath dir name) data
      match os (done ++ [a]) b with
      | some e => (done ++ [a] ++ [b], some (.os e))
      | none =>
        let c := Op.chtimes (filePath dir name)
        (done ++ [a] ++ [b] ++ [c], (os (done ++ [a] ++ [b]) c).map .os)

mutual

/-- template.go:474-488 `RestoreAssets`, of a directory that is not deeper than `fuel` (`none` if it is); the names in a directory come in the order
in which the map of children is visited (`order`). -/
def restoreAssets (order : List Str → List Str) (os : OS) (dir : Str) : Nat → Str → List Op → Option Result
  | 0, _, _ => none
  | fuel + 1, name, done => match assetDir order name with
    | none => some (restoreAsset os dir name done)
    | some children => restoreChildren order os dir fuel name children done

/-- template.go:481-487: the loop. -/
def restoreChildren (order : List Str → List Str) (os : OS) (dir : Str) (fuel : Nat) (name : Str) : List Str → List Op → Option Result
  | [], done => some (done, none)
  | child :: rest, done => match restoreAssets order os dir fuel (joinPath name child) done with
    | some (done, none) => restoreChildren order os dir fuel name rest done
    | r => r

end

end Baron.Assets
