import Verif.Props.FilesSpec
/-! # Runs of the file calls -/
namespace Verif.Files
open Verif.Os

/-! ## Bytes stored at an offset -/

theorem stored_patched (c : Bytes) (o : Nat) {d : Bytes} (hd : d ≠ []) : stored c o d = patched c o d := by
  have hl : 0 < d.length := List.length_pos_iff.mpr hd
  rw [patched, if_neg hd]
  apply List.ext_getElem?
  intro i
  have hr : ∀ m : Nat, (List.range m)[i]? = if i < m then some i else none := by
    intro m
    split
    · rename_i h; rw [List.getElem?_range h]
    · rw [List.getElem?_eq_none (by rw [List.length_range]; omega)]
  rw [List.getElem?_map, hr, stored]
  by_cases h1 : i < o
  · by_cases h2 : i < c.length
    · rw [List.append_assoc, List.append_assoc, List.getElem?_append_left (by rw [List.length_take]; omega), List.getElem?_take_of_lt h1, if_pos (by omega)]
      rw [Option.map_some, if_neg (by omega), List.getD_eq_getElem?_getD, List.getElem?_eq_getElem h2]
      rfl
    · have e1 : (c.take o).length = c.length := by rw [List.length_take]; omega
      rw [List.append_assoc, List.append_assoc, List.getElem?_append_right (by omega), List.getElem?_append_left (by rw [List.length_replicate, e1]; omega),
        List.getElem?_replicate, if_pos (by rw [e1]; omega), if_pos (by omega), Option.map_some, if_neg (by omega), List.getD_eq_getElem?_getD,
        List.getElem?_eq_none (by omega)]
      rfl
  · have e1 : (c.take o ++ List.replicate (o - c.length) (0 : UInt8)).length = o := by
      rw [List.length_append, List.length_take, List.length_replicate]; omega
    rw [List.append_assoc _ d]
    rw [List.getElem?_append_right (by rw [e1]; omega), e1]
    by_cases h3 : i < o + d.length
    · rw [List.getElem?_append_left (by omega), if_pos (by omega), Option.map_some, if_pos (by omega), List.getD_eq_getElem?_getD,
        List.getElem?_eq_getElem (show i - o < d.length by omega)]
      rfl
    · rw [List.getElem?_append_right (by omega), List.getElem?_drop]
      have e2 : o + d.length + (i - o - d.length) = i := by omega
      rw [e2]
      by_cases h4 : i < c.length
      · rw [if_pos (by omega), Option.map_some, if_neg (by omega), List.getD_eq_getElem?_getD, List.getElem?_eq_getElem h4]
        rfl
      · rw [if_neg (by omega), List.getElem?_eq_none (by omega)]
        rfl

theorem patched_end (c d : Bytes) : patched c c.length d = c ++ d := by
  by_cases hd : d = []
  · subst hd; simp [patched]
  · rw [← stored_patched c _ hd]
    simp [stored]

theorem patched_nil (o : Nat) (c : Bytes) : patched c o [] = c := by simp [patched]

/-! ## Descriptors -/

theorem descr_some {o : Os.Os} {fd : Int} {x : Open} (h : o.descr fd = some x) : 0 ≤ fd ∧ o.fds[fd.toNat]? = some (some x) := by
  unfold Os.Os.descr at h
  split at h
  · cases h
  · rename_i hf
    refine ⟨by omega, ?_⟩
    match hg : o.fds[fd.toNat]? with
    | none => rw [hg] at h; cases h
    | some none => rw [hg] at h; cases h
    | some (some y) => rw [hg] at h; cases h; rfl

theorem descr_of {o : Os.Os} {fd : Int} {x : Option Open} (h0 : 0 ≤ fd) (h : o.fds[fd.toNat]? = some x) : o.descr fd = x := by
  unfold Os.Os.descr
  rw [if_neg (by omega), h]
  rfl

theorem descr_set {o : Os.Os} {fd : Int} {y : Option Open} {x : Open} (h : o.descr fd = some x) (i : Int) :
    ({ o with fds := o.fds.set fd.toNat y } : Os.Os).descr i = if i = fd then y else o.descr i := by
  obtain ⟨h0, h1⟩ := descr_some h
  obtain ⟨h2, -⟩ := List.getElem?_eq_some_iff.mp h1
  split
  · rename_i hi
    subst hi
    exact descr_of h0 (by rw [List.getElem?_set_self h2])
  · rename_i hi
    unfold Os.Os.descr
    split
    · rfl
    · show ((o.fds.set fd.toNat y)[i.toNat]?).join = _
      rw [List.getElem?_set_ne (by omega)]

theorem setPos_descr {o : Os.Os} {fd : Int} {x : Open} (h : o.descr fd = some x) (p : Nat) (i : Int) :
    (o.setPos fd x p).descr i = if i = fd then some { x with pos := p } else o.descr i := descr_set h i

theorem setPos_same {o : Os.Os} {fd : Int} {x : Open} (h : o.descr fd = some x) : o.setPos fd x x.pos = o := by
  obtain ⟨-, h1⟩ := descr_some h
  obtain ⟨h2, h3⟩ := List.getElem?_eq_some_iff.mp h1
  show ({ o with fds := o.fds.set fd.toNat (some x) } : Os.Os) = o
  rw [← h3, List.set_getElem_self]

/-- The state with another position. -/
def moved (s : Sys) (fd : Int) (x : Open) (p : Nat) : Sys := { s with os := s.os.setPos fd x p }

/-- The description of an open file. -/
abbrev Use.at (u : Use) (n p : Nat) : Open := ⟨n, p, u.rd, u.wr, u.append⟩

variable {s : Sys} {f : FileInfo} {n : Nat} {u : Use} {c : Bytes} {p : Nat}

theorem IsOpen.moved (h : IsOpen s f n u c p) (q : Nat) : IsOpen (Files.moved s f.fd (u.at n p) q) f n u c q :=
  ⟨by unfold Files.moved; rw [setPos_descr h.fd, if_pos rfl], h.node⟩

theorem OnlyFile.refl (s : Sys) (n : Nat) (fd : Int) : OnlyFile s s n fd := ⟨rfl, rfl, fun _ _ => rfl, fun _ _ => rfl, rfl, ⟨rfl, rfl⟩, fun _ h => .inl h⟩

theorem OnlyFile.trans {a b d : Sys} {fd : Int} (h : OnlyFile a b n fd) (h' : OnlyFile b d n fd) : OnlyFile a d n fd :=
  ⟨h'.names.trans h.names, h'.count.trans h.count, fun m hm => (h'.nodes m hm).trans (h.nodes m hm), fun i hi => (h'.fds i hi).trans (h.fds i hi),
    h'.heap.trans h.heap, ⟨h'.std.1.trans h.std.1, h'.std.2.trans h.std.2⟩, fun x hx => by
      rcases h'.killed x hx with hx | ⟨h1, h2⟩
      · exact h.killed x hx
      · exact .inr ⟨h1.trans h.names, fun m hm => (h2 m hm).trans (h.nodes m hm)⟩⟩

theorem IsOpen.only (h : IsOpen s f n u c p) (q : Nat) : OnlyFile s (Files.moved s f.fd (u.at n p) q) n f.fd :=
  ⟨rfl, rfl, fun _ _ => rfl, fun i hi => by unfold Files.moved; rw [setPos_descr h.fd, if_neg hi], rfl, ⟨rfl, rfl⟩, fun _ h => .inl h⟩

/-! ## Seeking -/

theorem lseek_of (h : IsOpen s f n u c p) (offset : Int) (w : Whence) (start : Int)
    (hs : start = match w with | .begin => 0 | .current => (p : Int) | .atEnd => (c.length : Int)) :
    posixSeek s f.fd offset w = if start + offset < 0 then (false, none, s) else (true, some (start + offset), Files.moved s f.fd (u.at n p) (start + offset).toNat) := by
  unfold posixSeek Os.Os.lseek
  simp only [h.fd, Os.Os.node?, h.node]
  subst hs
  cases w <;> simp only [if_true] <;> split <;> rename_i hh <;> simp_all [Files.moved]

theorem seek_run (h : IsOpen s f n u c p) {o : Int} (ho : 0 ≤ o) : posixSeek s f.fd o .begin = (true, some o, Files.moved s f.fd (u.at n p) o.toNat) := by
  rw [lseek_of h o .begin 0 rfl, if_neg (by omega), Int.zero_add]

theorem seek_neg (h : IsOpen s f n u c p) {o : Int} (ho : o < 0) : posixSeek s f.fd o .begin = (false, none, s) := by
  rw [lseek_of h o .begin 0 rfl, if_pos (by omega)]

theorem tell_run (h : IsOpen s f n u c p) : posixSeek s f.fd 0 .current = (true, some (p : Int), s) := by
  rw [lseek_of h 0 .current p rfl, if_neg (by omega)]
  have e : ((p : Int) + 0).toNat = p := by omega
  rw [e, Int.add_zero]
  unfold Files.moved
  rw [show s.os.setPos f.fd (u.at n p) p = s.os from setPos_same h.fd]

theorem end_run (h : IsOpen s f n u c p) : posixSeek s f.fd 0 .atEnd = (true, some (c.length : Int), Files.moved s f.fd (u.at n p) c.length) := by
  rw [lseek_of h 0 .atEnd c.length rfl, if_neg (by omega)]
  have e : ((c.length : Int) + 0).toNat = c.length := by omega
  rw [e, Int.add_zero]

end Verif.Files
