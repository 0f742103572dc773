import Verif.Model.File
import Verif.Model.DbChar
import Verif.Model.Encoding
import Verif.Spec.Records

/-! What a compiled file contains, as a tree of directories. -/

namespace BurnFm.Spec

/-- An item of a directory: a record, or a numbered directory with its own items. -/
inductive Item where
  | record (w : What)
  | dir (n : Nat) (items : List Item)

mutual
/-- What a reader sees of an item found in directory `path`: a directory is entered, shown and left. -/
def Item.shown (path : List Nat) : Item → List Event
  | .record w => [⟨path, w⟩]
  | .dir n items => ⟨path ++ [n], .push⟩ :: (shownAll (path ++ [n]) items ++ [⟨path, .pop⟩])
/-- What a reader sees of several items, one after the other. -/
def shownAll (path : List Nat) : List Item → List Event
  | [] => []
  | i :: is => i.shown path ++ shownAll path is
end

/-- The obscured form of a text: every byte of its UTF-8 form is combined with 0x5A by exclusive or. -/
def obscured (s : Str) : Bytes := (utf8 s).map (· ^^^ 0x5A)

/-- A number in four bytes, the most significant first. -/
def fourBytes (n : Nat) : Bytes :=
  [UInt8.ofNat (n / 16777216), UInt8.ofNat (n / 65536), UInt8.ofNat (n / 256), UInt8.ofNat n]

def blanks (n : Nat) : Bytes := List.replicate n 0

/-- A path with its length and kind: parts of a path are separated by the byte 218 (128 obscured). -/
def slashed (parts : List Str) : Bytes := parts.flatMap fun s => 218 :: obscured s

/-- Directory 2: which program made the file. It claims to be FileMaker Pro 20.1.2 on a certain computer. -/
def maker : List Item :=
  [.record (.kv 3 (obscured t!"\"20.1\"")),
   .record (.kv 5 [4, 184]),
   .record (.kv 6 ([1, 10, 4, 179, 4, 115, 8, 179, 0, 19, 0, 0, 3, 124, 4, 0, 18, 5, 66, 128, 2] ++ blanks 4 ++ [66, 144] ++ blanks 3 ++
     [8, 2] ++ blanks 3 ++ [15] ++ blanks 9 ++ [1])),
   .record (.kv 8 ([78, 152, 78, 152, 78, 152] ++ blanks 36 ++ [23, 10] ++ obscured t!"Pro 20.1.2" ++ blanks 75 ++
     [1, 0, 0, 0, 2, 8] ++ obscured t!"1 14.1.1" ++ blanks 3 ++ [21, 6] ++ obscured t!"1 14.5" ++ blanks 70)),
   .record (.kv 9 (blanks 4 ++ [11, 251, 83, 44] ++ blanks 4 ++ [11, 251, 83, 44] ++ blanks 4 ++ [11, 251, 83, 44] ++ blanks 12 ++
     [23, 9] ++ obscured t!"201020204" ++ blanks 75)),
   .record (.kv 11 ([0, 8, 7] ++ obscured t!"filemac" ++ [98, 65, 50] ++
     slashed [t!"Macintosh HD", t!"Applications", t!"FileMaker Pro.app", t!"Contents", t!"Resources", t!"Installer", t!"Extensions",
       t!"Dictionaries", t!"Vukenglsh.mpr"] ++
     [7] ++ obscured t!"filemac" ++ [90, 65, 50] ++
     slashed [t!"Macintosh HD", t!"Users", t!"merimak", t!"Library", t!"Application Support", t!"FileMaker", t!"Extensions",
       t!"Dictionaries", t!"RUser.upr"])),
   .record (.kv 24 ([0, 0, 4, 3, 1, 1, 0, 0, 2, 1, 2, 0, 1, 0, 0, 0, 1, 0, 0, 2] ++ blanks 9 ++ [100, 0, 1, 0, 0]))]

/-- Directory 3: the names, numbers and count of the tables, an empty directory for each table, and the names and
numbers of the occurrences. -/
def tablePart (f : FmpFile) : List Item :=
  [.dir 16 [.dir 1
     [.dir 1 (f.tables.map fun t => .record (.longKv (encodeText t.2.name ++ [0, 0, 0]) [2, 128, UInt8.ofNat t.1])),
      .dir 3 (f.tables.map fun t => .record (.longKv (fourBytes t.1) (fourBytes t.1))),
      .record (.kv 4 (fourBytes f.tables.length)),
      .record (.kv 216 (obscured t!"hello")),
      .record (.kv 129 (obscured t!"admin")),
      .record (.kv 130 (obscured t!"admin")),
      .dir 5 (f.tables.map fun t => .dir (128 + t.1) [])]],
   .dir 17 [.dir 1
     [.record (.kv 0 [3, 208, 0, 9]),
      .dir 1 (f.tableOccurrences.map fun o => .record (.data (encodeText (o.2.name ++ ['\x00', '\x00'])))),
      .dir 3 (f.tableOccurrences.map fun o => .record (.data (fourBytes o.1))),
      .dir 8 []]]]

/-- A directory with a number in one byte and an empty directory. -/
def counted (n dir : Nat) : List Item := [.dir 1 [.record (.kv 0 [1, UInt8.ofNat n]), .dir dir []]]

/-- Everything in a compiled file. -/
def contents (f : FmpFile) : List Item :=
  [.dir 2 maker, .dir 3 (tablePart f), .dir 4 (counted f.layouts.length 5), .dir 6 [], .dir 17 (counted f.scripts.length 1),
   .dir 23 [], .dir 6 [], .dir 25 [], .dir 65 []]

/-- The fill after the last record: empty data in the root directory. -/
def filler : Event := ⟨[], .data []⟩

/-- The records a reader finds in directory `path`. -/
def recordsIn (path : List Nat) (evs : List Event) : List What :=
  evs.filterMap fun e => if e.path = path ∧ e.what ≠ .push ∧ e.what ≠ .pop then some e.what else none

end BurnFm.Spec
