import Verif.Model.Files
/-!
# What a user knows about files (specification of C62)

A file is its bytes and, while it is open, a position. What the calls of the library do to it is written down here without the operating system.
-/
namespace Verif.Files
open Verif.Os

/-- The bytes of the file of this name, if there is one. -/
def Sys.file (s : Sys) (path : Bytes) : Option Bytes :=
  match s.os.disk.look path with
  | none => none
  | some n =>
    match s.os.disk.nodes[n]? with
    | some ⟨true, c⟩ => some c
    | _ => none

/-- How a file may be used. -/
structure Use where
  rd : Bool
  wr : Bool
  append : Bool
  deriving Repr, DecidableEq

/-- `f` is open: it leads to file number `n` with the bytes `c`, and stands at `p`. -/
structure IsOpen (s : Sys) (f : FileInfo) (n : Nat) (u : Use) (c : Bytes) (p : Nat) : Prop where
  fd : s.os.descr f.fd = some ⟨n, p, u.rd, u.wr, u.append⟩
  node : s.os.disk.nodes[n]? = some ⟨true, c⟩

/-- Nothing but file number `n` and the position of descriptor `fd` differs, and so it was at every moment in between: whatever the process left behind if
it was killed (`killed`) is what there was before, but for file `n`. -/
structure OnlyFile (s s' : Sys) (n : Nat) (fd : Int) : Prop where
  names : s'.os.disk.names = s.os.disk.names
  count : s'.os.disk.nodes.length = s.os.disk.nodes.length
  nodes : ∀ m, m ≠ n → s'.os.disk.nodes[m]? = s.os.disk.nodes[m]?
  fds : ∀ i, i ≠ fd → s'.os.descr i = s.os.descr i
  heap : s'.heap = s.heap
  std : s'.stdSet = s.stdSet ∧ s'.std = s.std
  killed : ∀ x ∈ s'.os.history, x ∈ s.os.history ∨ x.names = s.os.disk.names ∧ ∀ m, m ≠ n → x.nodes[m]? = s.os.disk.nodes[m]?

/-- The system makes no trouble. -/
def Calm (s : Sys) : Prop := s.os.fates = []

/-- Bytes `d` put at offset `o`: byte by byte. Between the old end and `o` there are zeros. -/
def patched (c : Bytes) (o : Nat) (d : Bytes) : Bytes :=
  if d = [] then c
  else (List.range (max c.length (o + d.length))).map fun i => if o ≤ i ∧ i < o + d.length then d.getD (i - o) 0 else c.getD i 0

/-- The calls on an open file. -/
inductive Call where
  | write (d : Bytes)
  | writeAt (d : Bytes) (o : Nat)
  | read (n : Nat)
  | readAt (n : Nat) (o : Nat)
  | seek (o : Int)
  | seekEnd
  | tell
  | size

/-- What they answer. -/
inductive Answer where
  | done (ok : Bool)
  | bytes (ok : Bool) (b : Bytes)
  | number (i : Int)
  deriving Repr, DecidableEq

/-- The mode of the file allows the call. -/
def Call.allowed (u : Use) : Call → Bool
  | .write _ => u.wr
  | .writeAt _ _ => u.wr
  | .read _ => u.rd
  | .readAt _ _ => u.rd
  | _ => true

/-- A call, as the library makes it. -/
def Call.run (s : Sys) (f : FileInfo) : Call → Answer × FileInfo × Sys
  | .write d => let (ok, f, s) := fileWrite s f d; (.done ok, f, s)
  | .writeAt d o => let (ok, _, f, s) := fileWriteAt s f d o; (.done ok, f, s)
  | .read n => let (ok, b, f, s) := fileRead s f n; (.bytes ok b, f, s)
  | .readAt n o => let (ok, b, f, s) := fileReadAt s f n o; (.bytes ok b, f, s)
  | .seek o => let (i, f, s) := fileSeek s f o; (.number i, f, s)
  | .seekEnd => let (i, f, s) := fileSeekToEnd s f; (.number i, f, s)
  | .tell => let (i, f, s) := fileTell s f; (.number i, f, s)
  | .size => let (i, f, s) := fileSize s f; (.number i, f, s)

/-- What a call means: the answer, the bytes and the position behind it. A file opened for appending (`u.append`) takes the bytes at its end; `pw` says
that this holds for `file_write_at` as well (Linux). `file_write_at` moves the position exactly if it writes at the position. -/
def Call.meaning (u : Use) (pw : Bool) (c : Bytes) (p : Nat) : Call → Answer × Bytes × Nat
  | .write d => (.done true, if u.append then c ++ d else patched c p d, p + d.length)
  | .writeAt d o =>
    if o = p then (.done true, if u.append then c ++ d else patched c p d, (if u.append then c.length else p) + d.length)
    else (.done true, if u.append && pw then c ++ d else patched c o d, p)
  | .read n => (.bytes true ((c.drop p).take n), c, p + n)
  | .readAt n o => (.bytes true ((c.drop o).take n), c, p)
  | .seek o => if o < 0 then (.number 0, c, p) else (.number o, c, o.toNat)
  | .seekEnd => (.number c.length, c, c.length)
  | .tell => (.number p, c, p)
  | .size => (.number c.length, c, p)

/-- A history of calls. -/
def runAll (s : Sys) (f : FileInfo) : List Call → List Answer × FileInfo × Sys
  | [] => ([], f, s)
  | x :: l =>
    let (a, f, s) := x.run s f
    let (as, f, s) := runAll s f l
    (a :: as, f, s)

def meaningAll (u : Use) (pw : Bool) (c : Bytes) (p : Nat) : List Call → List Answer × Bytes × Nat
  | [] => ([], c, p)
  | x :: l =>
    let (a, c, p) := x.meaning u pw c p
    let (as, c, p) := meaningAll u pw c p l
    (a :: as, c, p)

/-! ## Opening and closing -/

/-- The modes. -/
inductive Mode where
  | read | write | append | readRW | writeRW | appendRW
  deriving Repr, DecidableEq

/-- READ, WRITE, APPEND and RW are the bits 0 to 3 (filesystem.hpp 8-15). -/
def Mode.bits : Mode → Nat
  | .read => 1 | .write => 2 | .append => 4 | .readRW => 1 + 8 | .writeRW => 2 + 8 | .appendRW => 4 + 8

def Mode.use : Mode → Use
  | .read => ⟨true, false, false⟩
  | .write => ⟨false, true, false⟩
  | .append => ⟨false, true, true⟩
  | .readRW => ⟨true, true, false⟩
  | .writeRW => ⟨true, true, false⟩
  | .appendRW => ⟨true, true, true⟩

/-- A missing file is created. -/
def Mode.creates : Mode → Bool
  | .read => false | .readRW => false | _ => true

/-- An existing file is emptied. -/
def Mode.empties : Mode → Bool
  | .write => true | .writeRW => true | _ => false

/-- From `s` to `s'`, `f` has been opened on file number `n`, called `path`: it has a descriptor nobody used, and a copy of the name; nothing else differs,
but for the bytes of the file. -/
structure Opened (s s' : Sys) (f : FileInfo) (path : Bytes) (n : Nat) : Prop where
  here : s'.os.disk.look path = some n
  names : ∀ q, q ≠ path → s'.os.disk.look q = s.os.disk.look q
  nodes : ∀ m, m ≠ n → s'.os.disk.nodes[m]? = s.os.disk.nodes[m]?
  fresh : s.os.descr f.fd = none
  fds : ∀ i, i ≠ f.fd → s'.os.descr i = s.os.descr i
  name : fileName s' f = .ok path
  heap : f.filename = some s.heap.length ∧ s'.heap = s.heap ++ [some path]
  plain : f.isTemp = false
  std : s'.stdSet = s.stdSet ∧ s'.std = s.std
  killed : ∀ x ∈ s'.os.history, x ∈ s.os.history ∨ x = s'.os.disk

/-- Nothing a user sees differs: the files, the descriptors, the live blocks of the heap, the standard files. -/
structure Unchanged (s s' : Sys) : Prop where
  disk : s'.os.disk = s.os.disk
  fds : ∀ i, s'.os.descr i = s.os.descr i
  heap : ∀ b : Nat, (s'.heap[b]?).join = (s.heap[b]?).join
  std : s'.stdSet = s.stdSet ∧ s'.std = s.std
  killed : ∀ x ∈ s'.os.history, x ∈ s.os.history
  calm : s.os.fates = [] → s'.os.fates = []

/-- What becomes of the next call that the system may refuse. -/
def nextFate (s : Sys) : Fate := s.os.fates.headD .full

end Verif.Files
