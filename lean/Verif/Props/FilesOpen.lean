import Verif.Proof.FilesOpen
/-! # C62 Files: opening and closing -/
namespace Verif.Files
open Verif.Os

/-- C62: an existing file is opened in each mode: it keeps its bytes, unless the mode empties it, and the position is its beginning. -/
theorem C62_open_existing {s : Sys} {path c : Bytes} (m : Mode) (hf : s.file path = some c) (hc : nextFate s ≠ .fails) :
    ∃ f s' n, fileOpenMode s m.bits path = .ok (.NONE, f, s') ∧ s.os.disk.look path = some n ∧ Opened s s' f path n ∧
      IsOpen s' f n m.use (if m.empties then [] else c) 0 ∧ s'.os.fates = s.os.fates.tail := by
  obtain ⟨n, h1, h2⟩ := file_some hf
  by_cases he : m.empties = true
  · have e : s.os.openAt path ⟨m.use.rd, m.use.wr, m.creates, m.empties, m.use.append⟩ = ((s.os.draw.2).become ((s.os.draw.2).disk.put n [])).newFd (m.use.at n 0) := by
      unfold Os.Os.openAt
      simp only [show s.os.draw.1 = nextFate s from rfl, hc, if_false, show s.os.draw.2.disk.look path = some n from h1, Os.Os.node?,
        show s.os.draw.2.disk.nodes[n]? = some ⟨true, c⟩ from h2, he, Bool.and_true, if_true]
    refine ⟨_, _, n, open_run e, h1, opened_of h1 (fun q hq => rfl) (fun k hk => ?_) rfl (fun d hd => ?_), ?_, ?_⟩
    · exact (put_nodes _ n [] k).trans (if_neg hk)
    · rcases List.mem_cons.mp hd with hd | hd
      · exact .inr hd
      · exact .inl hd
    · refine isOpen_of ?_
      rw [if_pos he]
      refine (put_nodes _ n [] n).trans ?_
      rw [if_pos rfl]
      show Option.map _ (s.os.disk.nodes[n]?) = _
      rw [h2]
      rfl
    · show s.os.fates.drop 1 = _
      simp
  · have e : s.os.openAt path ⟨m.use.rd, m.use.wr, m.creates, m.empties, m.use.append⟩ = (s.os.draw.2).newFd (m.use.at n 0) := by
      unfold Os.Os.openAt
      simp only [show s.os.draw.1 = nextFate s from rfl, hc, if_false, show s.os.draw.2.disk.look path = some n from h1, Os.Os.node?,
        show s.os.draw.2.disk.nodes[n]? = some ⟨true, c⟩ from h2, he, Bool.false_and, if_false]
      simp
    refine ⟨_, _, n, open_run e, h1, opened_of h1 (fun q hq => rfl) (fun k hk => rfl) rfl (fun d hd => .inl hd), ?_, ?_⟩
    · refine isOpen_of ?_
      rw [if_neg he]
      exact h2
    · show s.os.fates.drop 1 = _
      simp

/-- C62: a missing file is created empty by the modes that write, and all the others stay as they are. -/
theorem C62_open_creates {s : Sys} {path : Bytes} (m : Mode) (hm : m.creates = true) (hf : s.os.disk.look path = none) (hc : nextFate s ≠ .fails) :
    ∃ f s' n, fileOpenMode s m.bits path = .ok (.NONE, f, s') ∧ s.os.disk.nodes[n]? = none ∧ Opened s s' f path n ∧ IsOpen s' f n m.use [] 0 ∧
      s'.os.fates = s.os.fates.tail := by
  have e : s.os.openAt path ⟨m.use.rd, m.use.wr, m.creates, m.empties, m.use.append⟩ =
      ((s.os.draw.2).become ⟨(path, s.os.disk.nodes.length) :: s.os.disk.names, s.os.disk.nodes ++ [⟨true, []⟩]⟩).newFd (m.use.at s.os.disk.nodes.length 0) := by
    unfold Os.Os.openAt
    simp only [show s.os.draw.1 = nextFate s from rfl, hc, if_false, show s.os.draw.2.disk.look path = none from hf, hm, if_true]
    rfl
  refine ⟨_, _, s.os.disk.nodes.length, open_run e, List.getElem?_eq_none (Nat.le_refl _),
    opened_of ((look_cons path path _ s.os.disk).trans (if_pos rfl)) (fun q hq => (look_cons path q _ s.os.disk).trans (if_neg hq)) (fun k hk => ?_) rfl (fun d hd => ?_), ?_, ?_⟩
  · show (s.os.disk.nodes ++ [⟨true, []⟩])[k]? = _
    by_cases hlt : k < s.os.disk.nodes.length
    · rw [List.getElem?_append_left hlt]
    · rw [List.getElem?_eq_none (by simp; omega), List.getElem?_eq_none (by omega)]
  · rcases List.mem_cons.mp hd with hd | hd
    · exact .inr hd
    · exact .inl hd
  · refine isOpen_of ?_
    show (s.os.disk.nodes ++ [⟨true, []⟩])[s.os.disk.nodes.length]? = _
    simp
  · show s.os.fates.drop 1 = _
    simp

/-- C62: where a file cannot be opened - the system refuses, or it is missing and the mode does not create it - the call says so and nothing has changed. -/
theorem C62_open_fails {s : Sys} {path : Bytes} (m : Mode) (h : nextFate s = .fails ∨ (m.creates = false ∧ s.os.disk.look path = none)) :
    ∃ f s', fileOpenMode s m.bits path = .ok (.INVALID, f, s') ∧ Unchanged s s' := by
  have e : s.os.openAt path ⟨m.use.rd, m.use.wr, m.creates, m.empties, m.use.append⟩ = (-1, s.os.draw.2) := by
    unfold Os.Os.openAt
    by_cases hc : nextFate s = .fails
    · simp only [show s.os.draw.1 = nextFate s from rfl, hc, if_true]
    · obtain ⟨h1, h2⟩ := h.resolve_left hc
      simp only [show s.os.draw.1 = nextFate s from rfl, hc, if_false, show s.os.draw.2.disk.look path = none from h2, h1]
      rfl
  exact ⟨_, _, open_fails e, rfl, fun _ => rfl, fun _ => rfl, ⟨rfl, rfl⟩, fun _ h => h, fun h => by show s.os.fates.drop 1 = []; rw [h]; rfl⟩

/-- C62: combinations of the mode bits other than the six stop the program. -/
theorem C62_open_bad_mode (s : Sys) (path : Bytes) (mode : Nat) (h : ∀ m : Mode, mode % 16 ≠ m.bits) : fileOpenMode s mode path = .stop := by
  have h1 := h .read
  have h2 := h .write
  have h3 := h .append
  have h4 := h .readRW
  have h5 := h .writeRW
  have h6 := h .appendRW
  unfold fileOpenMode osMode
  simp only [Mode.bits] at h1 h2 h3 h4 h5 h6
  simp [h1, h2, h3, h4, h5, h6]

/-- C62: closing gives the descriptor and the name back, and leaves everything else alone. -/
theorem C62_close {s : Sys} {f : FileInfo} {x : Open} {b : Nat} {t : Bytes} (hf : s.os.descr f.fd = some x) (hb : f.filename = some b)
    (ht : s.heap[b]? = some (some t)) (hp : f.isTemp = false) :
    ∃ f' s', fileClose s f = .ok (.NONE, f', s') ∧ s'.os.descr f.fd = none ∧ (∀ i, i ≠ f.fd → s'.os.descr i = s.os.descr i) ∧ s'.heap = s.heap.set b none ∧
      s'.os.disk = s.os.disk ∧ s'.os.history = s.os.history ∧ s'.stdSet = s.stdSet ∧ s'.std = s.std ∧ f'.fd = f.fd ∧ f'.filename = f.filename ∧
      s'.os.fates = s.os.fates := by
  obtain ⟨h0, h1⟩ := descr_some hf
  have e : (s.os.closeFd f.fd).2 = { s.os with fds := s.os.fds.set f.fd.toNat none } := by
    unfold Os.Os.closeFd
    rw [hf]
  refine ⟨{ f with ops := true }, { s with heap := s.heap.set b none, os := { s.os with fds := s.os.fds.set f.fd.toNat none } }, ?_, ?_, ?_, rfl, rfl, rfl, rfl, rfl, rfl, rfl, rfl⟩
  · unfold fileClose freeName
    rw [hb]
    simp only [ht, Res.bind_eq, Res.ok_bind, hp]
    rw [if_neg (by omega)]
    simp [e]
  · show Os.Os.descr { s.os with fds := s.os.fds.set f.fd.toNat none } f.fd = none
    rw [descr_set hf, if_pos rfl]
  · intro i hi
    show Os.Os.descr { s.os with fds := s.os.fds.set f.fd.toNat none } i = _
    rw [descr_set hf, if_neg hi]

/-- C62 is false of closing a file twice: the name is freed twice. -/
theorem C62_close_twice_refuted {s : Sys} {f : FileInfo} {x : Open} {b : Nat} {t : Bytes} (hf : s.os.descr f.fd = some x) (hb : f.filename = some b)
    (ht : s.heap[b]? = some (some t)) (hp : f.isTemp = false) : ((fileClose s f).bind fun r => fileClose r.2.2 r.2.1) = .ub := by
  obtain ⟨f', s', h1, -, -, h2, -, -, -, -, -, h3, -⟩ := C62_close hf hb ht hp
  rw [h1, Res.ok_bind]
  show fileClose s' f' = .ub
  have hlt : b < s.heap.length := (List.getElem?_eq_some_iff.mp ht).1
  unfold fileClose freeName
  rw [h3, hb, h2]
  simp only [List.getElem?_set_self hlt]
  rfl

end Verif.Files
