import Verif.Props.Files
/-! # Opening and closing -/
namespace Verif.Files
open Verif.Os

theorem newFd_fresh (o : Os.Os) (x : Open) : o.descr (o.newFd x).1 = none := by
  show o.descr ((o.fds.idxOf none : Nat) : Int) = none
  unfold Os.Os.descr
  rw [if_neg (by omega), Int.toNat_natCast]
  by_cases h : o.fds.idxOf none < o.fds.length
  · have := List.getElem_idxOf h
    rw [List.getElem?_eq_getElem h, this]
    rfl
  · rw [List.getElem?_eq_none (by omega)]
    rfl

theorem newFd_descr (o : Os.Os) (x : Open) (i : Int) : (o.newFd x).2.descr i = if i = (o.newFd x).1 then some x else o.descr i := by
  show ({ o with fds := o.fds.take (o.fds.idxOf none) ++ some x :: o.fds.drop (o.fds.idxOf none + 1) } : Os.Os).descr i = if i = ((o.fds.idxOf none : Nat) : Int) then some x else o.descr i
  have hle : o.fds.idxOf none ≤ o.fds.length := List.idxOf_le_length
  obtain ⟨k, hk⟩ : ∃ k, k = o.fds.idxOf none := ⟨_, rfl⟩
  rw [← hk] at hle ⊢
  have hl : (o.fds.take k).length = k := by rw [List.length_take]; omega
  unfold Os.Os.descr
  by_cases hi : i < 0
  · rw [if_pos hi, if_pos hi, if_neg (by omega)]
  · rw [if_neg hi, if_neg hi]
    show ((o.fds.take k ++ some x :: o.fds.drop (k + 1))[i.toNat]?).join = _
    by_cases h1 : i.toNat < k
    · rw [List.getElem?_append_left (by omega), List.getElem?_take_of_lt h1, if_neg (by omega)]
    · rw [List.getElem?_append_right (by omega), hl]
      by_cases h2 : i.toNat = k
      · rw [if_pos (by omega), h2, Nat.sub_self]
        rfl
      · rw [if_neg (by omega)]
        obtain ⟨j, hj⟩ : ∃ j, i.toNat - k = j + 1 := ⟨i.toNat - k - 1, by omega⟩
        rw [hj, List.getElem?_cons_succ, List.getElem?_drop]
        congr 2
        omega

theorem newFd_nonneg (o : Os.Os) (x : Open) : ¬ (o.newFd x).1 < 0 := by
  show ¬ ((o.fds.idxOf none : Nat) : Int) < 0
  omega

theorem osMode_of (m : Mode) : osMode m.bits = some ⟨m.use.rd, m.use.wr, m.creates, m.empties, m.use.append⟩ := by
  cases m <;> rfl

/-- The rest of `file_open_mode` once the system has given a descriptor. -/
theorem open_run {s : Sys} {m : Mode} {path : Bytes} {o : Os.Os} {x : Open}
    (h : s.os.openAt path ⟨m.use.rd, m.use.wr, m.creates, m.empties, m.use.append⟩ = o.newFd x) :
    fileOpenMode s m.bits path = .ok (.NONE, ⟨true, (o.newFd x).1, false, some s.heap.length⟩, { s with os := (o.newFd x).2, heap := s.heap ++ [some path] }) := by
  unfold fileOpenMode
  rw [osMode_of]
  simp only [h]
  rw [if_neg (newFd_nonneg o x)]
  rfl

theorem open_fails {s : Sys} {m : Mode} {path : Bytes} {o : Os.Os}
    (h : s.os.openAt path ⟨m.use.rd, m.use.wr, m.creates, m.empties, m.use.append⟩ = (-1, o)) :
    fileOpenMode s m.bits path = .ok (.INVALID, ⟨false, -1, false, none⟩, { s with os := o }) := by
  unfold fileOpenMode
  rw [osMode_of]
  simp only [h]
  rfl

/-- The description a mode makes. -/
theorem look_cons (path q : Bytes) (n : Nat) (d : Disk) :
    (⟨(path, n) :: d.names, d.nodes ++ [⟨true, []⟩]⟩ : Disk).look q = if q = path then some n else d.look q := by
  unfold Disk.look
  rw [List.find?_cons]
  by_cases h : q = path
  · subst h
    simp
  · rw [if_neg h]
    have : (path == q) = false := by simpa using fun hh : path = q => h hh.symm
    simp [this]

theorem opened_of {s : Sys} {o : Os.Os} {x : Open} {path : Bytes} {n : Nat} (hn : o.disk.look path = some n)
    (hnames : ∀ q, q ≠ path → o.disk.look q = s.os.disk.look q) (hnodes : ∀ m, m ≠ n → o.disk.nodes[m]? = s.os.disk.nodes[m]?)
    (hfds : o.fds = s.os.fds) (hk : ∀ d ∈ o.history, d ∈ s.os.history ∨ d = o.disk) :
    Opened s { s with os := (o.newFd x).2, heap := s.heap ++ [some path] } ⟨true, (o.newFd x).1, false, some s.heap.length⟩ path n := by
  have hd : ∀ i, o.descr i = s.os.descr i := fun i => by unfold Os.Os.descr; rw [hfds]
  refine ⟨hn, hnames, hnodes, ?_, ?_, ?_, ⟨rfl, rfl⟩, rfl, ⟨rfl, rfl⟩, hk⟩
  · rw [← hd]
    exact newFd_fresh o x
  · intro i hi
    rw [← hd]
    show (o.newFd x).2.descr i = _
    rw [newFd_descr, if_neg hi]
  · unfold fileName
    simp

theorem isOpen_of {s : Sys} {o : Os.Os} {u : Use} {n : Nat} {c : Bytes} {h : List (Option Bytes)} {b : Option Nat} (hn : o.disk.nodes[n]? = some ⟨true, c⟩) :
    IsOpen { s with os := (o.newFd (u.at n 0)).2, heap := h } ⟨true, (o.newFd (u.at n 0)).1, false, b⟩ n u c 0 :=
  ⟨by show (o.newFd (u.at n 0)).2.descr (o.newFd (u.at n 0)).1 = _; rw [newFd_descr, if_pos rfl], hn⟩

theorem file_some {s : Sys} {path c : Bytes} (h : s.file path = some c) :
    ∃ n, s.os.disk.look path = some n ∧ s.os.disk.nodes[n]? = some ⟨true, c⟩ := by
  unfold Sys.file at h
  split at h
  · cases h
  · rename_i n hn
    split at h
    · rename_i c' hc
      cases h
      exact ⟨n, hn, hc⟩
    · cases h

theorem file_of {s : Sys} {path c : Bytes} {n : Nat} (h : s.os.disk.look path = some n) (hn : s.os.disk.nodes[n]? = some ⟨true, c⟩) : s.file path = some c := by
  unfold Sys.file
  rw [h]
  simp only [hn]

end Verif.Files
