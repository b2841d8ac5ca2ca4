import Verif.Path.Full

namespace Verif.Path
open Verif.View

/-- the text of a string literal -/
def tx (s : String) : List Ch := s.toList.map ch

/-- a view in the middle of a larger block -/
def vw (s : String) : View Ch := ⟨tx "##" ++ tx s ++ tx "##", 2, s.toList.length⟩

def txt (o : Option (View Ch)) : Option (List Ch) := o.map View.text

/-! ### Decomposition on ordinary paths -/

/-- roots, directories and file names of ordinary paths -/
theorem C55_ok :
    txt (pathRoot true (vw "C:\\a\\b.txt")) = some (tx "C:\\") ∧
    txt (pathRoot true (vw "\\\\srv\\share\\x")) = some (tx "\\\\srv\\share\\") ∧
    txt (pathRoot true (vw "\\\\?\\UNC\\srv\\share\\x")) = some (tx "\\\\?\\UNC\\srv\\share\\") ∧
    txt (pathRoot true (vw "\\\\?\\C:\\x")) = some (tx "\\\\?\\C:\\") ∧
    txt (pathRoot true (vw "C:foo")) = some (tx "C:") ∧
    txt (pathRoot false (vw "/usr/lib")) = some (tx "/") ∧
    txt (pathRoot false (vw "usr/lib")) = some [] ∧
    txt (directory true (vw "C:\\a\\b.txt")) = some (tx "C:\\a") ∧
    txt (fileName true (vw "C:\\a\\b.txt")) = some (tx "b.txt") ∧
    txt (extension true (vw "C:\\a\\b.tar.gz")) = some (tx ".gz") ∧
    txt (fileName false (vw "/usr/lib/x")) = some (tx "x") := by decide +kernel

/-- the hypotheses of `C55_root` are met by a GUID volume too -/
theorem guid_ok : txt (pathRoot true (vw "\\\\?\\Volume{01234567-89ab-cdef-0123-456789ABCDEF}\\x")) =
    some (tx "\\\\?\\Volume{01234567-89ab-cdef-0123-456789ABCDEF}\\") := by decide +kernel

/-- **C55 fails**: the file name of a file that stands directly in the root is the whole path -/
theorem C55_fileName_fails :
    txt (fileName true (vw "C:\\a")) = some (tx "C:\\a") ∧ txt (directory true (vw "C:\\a")) = some (tx "C:\\") ∧
    txt (fileName false (vw "/a")) = some (tx "/a") ∧ txt (directory false (vw "/a")) = some (tx "/") ∧
    txt (fileName true (vw "C:a")) = some (tx "C:a") := by decide +kernel

/-- **C55 fails**: the file name without extension is the extension -/
theorem C55_noExt_fails :
    txt (fileNameNoExt true (vw "C:\\a\\b.txt")) = some (tx ".txt") ∧ txt (extension true (vw "C:\\a\\b.txt")) = some (tx ".txt") := by decide +kernel

/-- the extension of a file without one that stands in a root whose name has a dot is taken from the root -/
theorem C55_extension_fails : txt (extension true (vw "\\\\srv.net\\share\\file")) = some (tx ".net\\share\\file") := by decide +kernel

/-! ### Append -/

theorem C56_append_ok :
    append true false (tx "C:\\a") (vw "b") = some (tx "C:\\a\\b") ∧ append true false (tx "C:\\a\\") (vw "b") = some (tx "C:\\a\\b") ∧
    append true false (tx "C:\\a") (vw "\\b") = some (tx "C:\\a\\b") ∧ append true false (tx "C:\\a") (vw "D:\\b") = some (tx "D:\\b") ∧
    append false false (tx "/a") (vw "b") = some (tx "/a/b") ∧ append false false (tx "/a") (vw "/b") = some (tx "/b") ∧
    append false false [] (vw "b") = some (tx "b") ∧ append true false (tx "C:\\a") (vw "\\\\") = some (tx "\\\\") := by decide +kernel

/-- **C56 fails**: appending to a path whose string shares its storage with another string loses the path -/
theorem C56_append_fails : append true true (tx "C:\\a") (vw "b") = some (tx "b") ∧ append false true (tx "/a") (vw "b") = some (tx "b") := by decide +kernel

open Verif.StrHeap in
/-- the same on the storage model: the calls that `Append` makes on a string that owns "abc", and on a copy that shares it.  First the path is extended, then it is lost. -/
theorem C56_append_storage_fails :
    (∃ s, Run 0 (init 0) [.new, .setStr 0 (.ext [97, 98, 99]) (at_ 1), .lock 0 5 none, .unlock 0, .appendChar 0 47 none, .append 0 (.ext [100]) none] s ∧
      (seen s 0).map Seen.text = some [97, 98, 99, 47, 100]) ∧
    (∃ s, Run 0 (init 0) (abc2 ++ [.lock 1 5 (at_ 2), .unlock 1, .append 1 (.ext [100]) none]) s ∧
      (seen s 1).map Seen.text = some [100] ∧ (seen s 0).map Seen.text = some [97, 98, 99]) := by
  obtain ⟨s, r, h⟩ := StrHeap.witness (cls := 0) (ops := [.new, .setStr 0 (.ext [97, 98, 99]) (at_ 1), .lock 0 5 none, .unlock 0, .appendChar 0 47 none, .append 0 (.ext [100]) none])
    (fun s => decide ((seen s 0).map Seen.text = some [97, 98, 99, 47, 100])) (by decide +kernel)
  obtain ⟨s', r', h'⟩ := StrHeap.witness (cls := 0) (ops := abc2 ++ [.lock 1 5 (at_ 2), .unlock 1, .append 1 (.ext [100]) none])
    (fun s => decide ((seen s 1).map Seen.text = some [100] ∧ (seen s 0).map Seen.text = some [97, 98, 99])) (by decide +kernel)
  exact ⟨⟨s, r, of_decide_eq_true h⟩, ⟨s', r', of_decide_eq_true h'⟩⟩

/-! ### Full paths -/

theorem C56_fullPath_ok :
    fullPath true (tx "D:\\work") (vw "C:\\x") = some (tx "C:\\x") ∧ fullPath true (tx "D:\\work") (vw "x\\y") = some (tx "D:\\work\\x\\y") ∧
    fullPath true (tx "D:\\work") (vw "\\x") = some (tx "D:\\x") ∧ fullPath false (tx "/work") (vw "x") = some (tx "/work/x") ∧
    fullPath false (tx "/work") (vw "/x") = some (tx "/x") := by decide +kernel

/-- **C56 fails**: `IsSameVolume` answers the opposite -/
theorem C56_sameVolume_fails :
    sameVolume true (vw "C:\\") (vw "C:") = some false ∧ sameVolume true (vw "C:\\") (vw "D:") = some true := by decide +kernel

/-- **C56 fails**: with the current directory `D:\work` the path `C:foo` becomes `D:\work\foo`, a file on another volume; with the current directory `C:\work` it becomes
`C:\foo` and the directory is ignored -/
theorem C56_fullPath_fails :
    fullPath true (tx "D:\\work") (vw "C:foo") = some (tx "D:\\work\\foo") ∧ fullPath true (tx "C:\\work") (vw "C:foo") = some (tx "C:\\foo") := by decide +kernel

/-- **C56 fails**: outside Windows `IsPathFullyQualified` reads the first unit of an empty view, here memory it does not have -/
theorem C56_qualified_empty_fails : fullyQualified false emptyView = none := by decide

#print axioms C55_root
#print axioms root_unique
#print axioms C55_split_partial
#print axioms C55_split_unrooted
#print axioms C55_extension
#print axioms C55_noExt_partial
#print axioms C56_append_partial
#print axioms C56_append_shared
#print axioms C56_sameVolume_inverted
#print axioms C56_qualified_partial
#print axioms C56_fullPath_partial
#print axioms C56_fullPath_drive
#print axioms C56_append_storage_fails

end Verif.Path
