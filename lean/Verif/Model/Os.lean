import Verif.Model.Res
import Verif.Model.Bytes
/-!
# The calls of the operating system that the library makes (POSIX: open, lseek, pread, pwrite, write, close)

No file of /repo is modelled here: this is the environment of base/dependencies/filesystem.cpp 182-282, as POSIX describes it. A name leads to a node
(several names may lead to the same one), a node is a file (its bytes) or something that cannot be positioned in: a terminal, a pipe. `fates` says what the
system will do with the next `open`, `pread`, `pwrite` and `write`: let them fail, transfer fewer bytes than asked, or do as asked; an empty list means no
trouble. `history` records every state of the names and nodes, the newest first: it is what the next process finds if this one is killed. A transfer can be
cut off behind any of its bytes. Not modelled: directories, permissions (they are a reason to fail), other processes that write to the same files.
-/
namespace Verif.Os

/-- What becomes of a call. -/
inductive Fate where
  | fails
  | atMost (n : Nat)
  | full
  deriving Repr, DecidableEq

structure Node where
  seekable : Bool
  data : Bytes
  deriving Repr, DecidableEq

/-- An open file description. -/
structure Open where
  node : Nat
  pos : Nat
  rd : Bool
  wr : Bool
  append : Bool
  deriving Repr, DecidableEq

structure Disk where
  names : List (Bytes × Nat)
  nodes : List Node
  deriving Repr, DecidableEq

structure Os where
  disk : Disk
  fds : List (Option Open)
  fates : List Fate
  linux : Bool
  history : List Disk
  deriving Repr, DecidableEq

/-- The flags of `open`. -/
structure Flags where
  rd : Bool
  wr : Bool
  creat : Bool
  trunc : Bool
  append : Bool
  deriving Repr, DecidableEq

/-- `SeekWhenceType` (filesystem.hpp 18-23) has the values of SEEK_SET, SEEK_CUR and SEEK_END. -/
inductive Whence where
  | begin
  | current
  | atEnd
  deriving Repr, DecidableEq

def Disk.look (d : Disk) (path : Bytes) : Option Nat := (d.names.find? fun x => x.1 == path).map (·.2)

def Disk.put (d : Disk) (n : Nat) (data : Bytes) : Disk := { d with nodes := d.nodes.modify n fun x => { x with data := data } }

/-- Bytes stored at an offset: zeros fill the gap if the offset lies behind the end. -/
def stored (c : Bytes) (at' : Nat) (d : Bytes) : Bytes := c.take at' ++ List.replicate (at' - c.length) 0 ++ d ++ c.drop (at' + d.length)

namespace Os

def draw (o : Os) : Fate × Os := (o.fates.headD .full, { o with fates := o.fates.drop 1 })

/-- The disk changes. -/
def become (o : Os) (d : Disk) : Os := { o with disk := d, history := d :: o.history }

def node? (o : Os) (n : Nat) : Option Node := o.disk.nodes[n]?

/-- The description behind a descriptor. -/
def descr (o : Os) (fd : Int) : Option Open := if fd < 0 then none else (o.fds[fd.toNat]?).join

/-- The lowest free descriptor is taken. -/
def newFd (o : Os) (x : Open) : Int × Os :=
  let i := o.fds.idxOf none
  ((i : Int), { o with fds := o.fds.take i ++ some x :: o.fds.drop (i + 1) })

/-- open(2). -/
def openAt (o : Os) (path : Bytes) (fl : Flags) : Int × Os :=
  let (fate, o) := o.draw
  if fate = .fails then (-1, o)
  else match o.disk.look path with
    | some n =>
      let cut := match o.node? n with
        | some x => fl.trunc && x.seekable
        | none => false
      let o := if cut then o.become (o.disk.put n []) else o
      o.newFd ⟨n, 0, fl.rd, fl.wr, fl.append⟩
    | none =>
      if fl.creat then
        let n := o.disk.nodes.length
        let o := o.become ⟨(path, n) :: o.disk.names, o.disk.nodes ++ [⟨true, []⟩]⟩
        o.newFd ⟨n, 0, fl.rd, fl.wr, fl.append⟩
      else (-1, o)

/-- close(2). -/
def closeFd (o : Os) (fd : Int) : Int × Os :=
  match o.descr fd with
  | none => (-1, o)
  | some _ => (0, { o with fds := o.fds.set fd.toNat none })

def setPos (o : Os) (fd : Int) (x : Open) (pos : Nat) : Os := { o with fds := o.fds.set fd.toNat (some { x with pos := pos }) }

/-- lseek(2). -/
def lseek (o : Os) (fd offset : Int) (whence : Whence) : Int × Os :=
  match o.descr fd with
  | none => (-1, o)
  | some x =>
    match o.node? x.node with
    | none => (-1, o)
    | some n =>
      if n.seekable then
        let start : Int := match whence with
          | .begin => 0
          | .current => x.pos
          | .atEnd => n.data.length
        if start + offset < 0 then (-1, o) else (start + offset, o.setPos fd x (start + offset).toNat)
      else (-1, o)

/-- How many of `size` bytes are transferred. -/
def granted (fate : Fate) (size : Nat) : Nat :=
  match fate with
  | .atMost n => min n size
  | _ => size

/-- pread(2): the bytes read. -/
def pread (o : Os) (fd : Int) (size : Nat) (offset : Int) : Option Bytes × Os :=
  let (fate, o) := o.draw
  if fate = .fails ∨ offset < 0 then (none, o)
  else match o.descr fd with
    | none => (none, o)
    | some x =>
      match o.node? x.node with
      | none => (none, o)
      | some n => if x.rd && n.seekable then (some ((n.data.drop offset.toNat).take (granted fate size)), o) else (none, o)

/-- The bytes reach the disk one after the other. -/
def store (o : Os) (n at' : Nat) (old : Bytes) : Bytes → Nat → Os
  | _, 0 => o
  | d, k + 1 => (store o n at' old d k).become (o.disk.put n (stored old at' (d.take (k + 1))))

/-- write(2). -/
def write (o : Os) (fd : Int) (d : Bytes) : Int × Os :=
  let (fate, o) := o.draw
  if fate = .fails then (-1, o)
  else match o.descr fd with
    | none => (-1, o)
    | some x =>
      match o.node? x.node with
      | none => (-1, o)
      | some n =>
        if x.wr then
          let k := granted fate d.length
          let at' := if x.append || !n.seekable then n.data.length else x.pos
          let o := o.store x.node at' n.data d k
          ((k : Int), if n.seekable then o.setPos fd x (at' + k) else o)
        else (-1, o)

/-- pwrite(2). With O_APPEND, Linux puts the bytes at the end. -/
def pwrite (o : Os) (fd : Int) (d : Bytes) (offset : Int) : Int × Os :=
  let (fate, o) := o.draw
  if fate = .fails ∨ offset < 0 then (-1, o)
  else match o.descr fd with
    | none => (-1, o)
    | some x =>
      match o.node? x.node with
      | none => (-1, o)
      | some n =>
        if x.wr && n.seekable then
          let k := granted fate d.length
          let at' := if x.append && o.linux then n.data.length else offset.toNat
          ((k : Int), o.store x.node at' n.data d k)
        else (-1, o)

end Os
end Verif.Os
