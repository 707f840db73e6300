import Verif.Proof.Files
/-! # Reading and writing -/
namespace Verif.Files
open Verif.Os

variable {s : Sys} {f : FileInfo} {n : Nat} {u : Use} {c : Bytes} {p : Nat}

/-! ## Bytes on their way to the disk -/

theorem store_rest (o : Os.Os) (n at' : Nat) (old d : Bytes) (k : Nat) :
    (o.store n at' old d k).fds = o.fds ∧ (o.store n at' old d k).fates = o.fates ∧ (o.store n at' old d k).linux = o.linux := by
  induction k with
  | zero => exact ⟨rfl, rfl, rfl⟩
  | succ k ih => exact ih

theorem store_disk (o : Os.Os) (n at' : Nat) (old d : Bytes) (k : Nat) :
    (o.store n at' old d k).disk = if k = 0 then o.disk else o.disk.put n (stored old at' (d.take k)) := by
  cases k with
  | zero => rfl
  | succ k => rfl

theorem store_history (o : Os.Os) (n at' : Nat) (old d : Bytes) (k : Nat) {x : Disk} (h : x ∈ (o.store n at' old d k).history) :
    x ∈ o.history ∨ ∃ j, 0 < j ∧ j ≤ k ∧ x = o.disk.put n (stored old at' (d.take j)) := by
  induction k with
  | zero => exact .inl h
  | succ k ih =>
    rcases List.mem_cons.mp h with h | h
    · exact .inr ⟨k + 1, by omega, Nat.le_refl _, h⟩
    · rcases ih h with h | ⟨j, h1, h2, h3⟩
      · exact .inl h
      · exact .inr ⟨j, h1, by omega, h3⟩

theorem put_nodes (d : Disk) (n : Nat) (t : Bytes) (m : Nat) : (d.put n t).nodes[m]? = if m = n then (d.nodes[m]?).map (fun x => { x with data := t }) else d.nodes[m]? := by
  show (d.nodes.modify n _)[m]? = _
  rw [List.getElem?_modify]
  by_cases h : n = m
  · subst h; simp
  · rw [if_neg (fun hh => h hh.symm)]; simp [h]

/-- The next call has been drawn. -/
def drawn (s : Sys) : Sys := { s with os := s.os.draw.2 }

/-- What becomes of the next call. -/
def fate (s : Sys) : Fate := s.os.draw.1

theorem drawn_open (h : IsOpen s f n u c p) : IsOpen (drawn s) f n u c p := ⟨h.fd, h.node⟩

theorem drawn_only (s : Sys) (n : Nat) (fd : Int) : OnlyFile s (drawn s) n fd := ⟨rfl, rfl, fun _ _ => rfl, fun _ _ => rfl, rfl, ⟨rfl, rfl⟩, fun _ h => .inl h⟩

theorem drawn_calm (h : Calm s) : drawn s = s := by
  have h : s.os.fates = [] := h
  show ({ s with os := { s.os with fates := s.os.fates.drop 1 } } : Sys) = s
  have e : s.os.fates.drop 1 = s.os.fates := by rw [h]; rfl
  rw [e]

theorem fate_calm (h : Calm s) : fate s = .full := by
  have h : s.os.fates = [] := h
  show s.os.fates.headD .full = .full
  rw [h]
  rfl

/-- The first `k` bytes of `d` have been stored in file `n`. -/
def wrote (s : Sys) (n at' : Nat) (old d : Bytes) (k : Nat) : Sys := { s with os := s.os.store n at' old d k }

theorem wrote_open (h : IsOpen s f n u c p) (at' : Nat) (d : Bytes) {k : Nat} (hk : k ≤ d.length) :
    IsOpen (wrote s n at' c d k) f n u (patched c at' (d.take k)) p := by
  refine ⟨?_, ?_⟩
  · show Os.Os.descr (s.os.store n at' c d k) f.fd = _
    unfold Os.Os.descr
    rw [(store_rest s.os n at' c d k).1]
    exact h.fd
  · show (s.os.store n at' c d k).disk.nodes[n]? = _
    rw [store_disk]
    split
    · rename_i hk
      subst hk
      rw [List.take_zero, patched_nil]
      exact h.node
    · rename_i h0
      rw [put_nodes, if_pos rfl, h.node, stored_patched]
      · rfl
      · intro hh
        have := congrArg List.length hh
        rw [List.length_take, List.length_nil] at this
        omega

theorem wrote_only (s : Sys) (n at' : Nat) (old d : Bytes) (k : Nat) (fd : Int) : OnlyFile s (wrote s n at' old d k) n fd := by
  have hf := (store_rest s.os n at' old d k).1
  have hd := store_disk s.os n at' old d k
  refine ⟨?_, ?_, ?_, ?_, rfl, ⟨rfl, rfl⟩, ?_⟩
  · show (s.os.store n at' old d k).disk.names = _
    rw [hd]; split <;> rfl
  · show (s.os.store n at' old d k).disk.nodes.length = _
    rw [hd]; split
    · rfl
    · show (s.os.disk.nodes.modify n _).length = _
      rw [List.length_modify]
  · intro m hm
    show (s.os.store n at' old d k).disk.nodes[m]? = _
    rw [hd]; split
    · rfl
    · rw [put_nodes, if_neg hm]
  · intro i hi
    show Os.Os.descr (s.os.store n at' old d k) i = _
    unfold Os.Os.descr
    rw [hf]
  · intro x hx
    rcases store_history s.os n at' old d k hx with hx | ⟨j, -, -, rfl⟩
    · exact .inl hx
    · exact .inr ⟨rfl, fun m hm => by rw [put_nodes, if_neg hm]⟩

/-! ## The calls of the operating system -/

/-- A call that is refused: the system does not want to, or the file was not opened for writing. -/
def refuses (s : Sys) (u : Use) : Bool := fate s == .fails || !u.wr

/-- How many of `size` bytes go over. -/
def goes (s : Sys) (size : Nat) : Nat := Os.Os.granted (fate s) size

theorem goes_le (s : Sys) (size : Nat) : goes s size ≤ size := by
  unfold goes Os.Os.granted
  split
  · exact Nat.min_le_right _ _
  · exact Nat.le_refl _

theorem goes_calm (h : Calm s) (size : Nat) : goes s size = size := by
  unfold goes
  rw [fate_calm h]
  rfl

/-- Where `file_write_at` puts its bytes: at the position (then it may be a file to append to), or at the offset. -/
def putsAt (linux : Bool) (u : Use) (c : Bytes) (p : Nat) (o : Nat) : Nat :=
  if o = p then (if u.append then c.length else p) else (if u.append && linux then c.length else o)

theorem write_refused (h : IsOpen s f n u c p) (hr : refuses s u = true) (d : Bytes) (o : Nat) : posixWrite s f.fd d o = (false, 0, drawn s) := by
  unfold posixWrite
  rw [tell_run h]
  simp only [Option.getD_some]
  have hd := (drawn_open h).fd
  have hn := (drawn_open h).node
  have e : s.os.draw = (fate s, (drawn s).os) := rfl
  split
  · unfold Os.Os.write
    rw [e]
    simp only [hd, Os.Os.node?, hn]
    by_cases hf : fate s = .fails
    · simp [hf, drawn]
    · have : u.wr = false := by simpa [refuses, hf] using hr
      simp [hf, this, drawn]
  · unfold Os.Os.pwrite
    rw [e]
    simp only [hd, Os.Os.node?, hn]
    by_cases hf : fate s = .fails
    · simp [hf, drawn]
    · have : u.wr = false := by simpa [refuses, hf] using hr
      rw [if_neg (show ¬ (fate s = .fails ∨ (o : Int) < 0) from fun hh => hh.elim hf (fun hh => by omega))]
      simp [this, drawn]

theorem write_run (h : IsOpen s f n u c p) (hr : refuses s u = false) (d : Bytes) (o : Nat) :
    posixWrite s f.fd d o = (true, (goes s d.length : Int),
      if o = p then moved (wrote (drawn s) n (putsAt s.os.linux u c p o) c d (goes s d.length)) f.fd (u.at n p) (putsAt s.os.linux u c p o + goes s d.length)
      else wrote (drawn s) n (putsAt s.os.linux u c p o) c d (goes s d.length)) := by
  unfold posixWrite
  rw [tell_run h]
  simp only [Option.getD_some]
  have hd := (drawn_open h).fd
  have hn := (drawn_open h).node
  have e : s.os.draw = (fate s, (drawn s).os) := rfl
  obtain ⟨hf, hw⟩ : fate s ≠ .fails ∧ u.wr = true := by
    simpa [refuses] using hr
  obtain ⟨rd, wr, ap⟩ := u
  have hw : wr = true := hw
  subst hw
  by_cases ho : o = p
  · subst ho
    rw [if_pos rfl, if_pos rfl]
    unfold Os.Os.write
    rw [e]
    simp only [hd, Os.Os.node?, hn, hf, if_false, if_true, Bool.not_true, Bool.or_false, putsAt]
    rw [if_neg (by show ¬ ((goes s d.length : Nat) : Int) < 0; omega)]
    cases ap <;> rfl
  · have ho' : ¬ (p : Int) = (o : Int) := by omega
    rw [if_neg ho', if_neg ho]
    unfold Os.Os.pwrite
    rw [e]
    simp only [hd, Os.Os.node?, hn]
    rw [if_neg (show ¬ (fate s = .fails ∨ (o : Int) < 0) from fun hh => hh.elim hf (fun hh => by omega))]
    simp only [Bool.and_true, if_true, putsAt, if_neg ho, Int.toNat_natCast]
    rw [if_neg (by show ¬ ((goes s d.length : Nat) : Int) < 0; omega)]
    rfl

theorem read_run (h : IsOpen s f n u c p) (hr : fate s ≠ .fails) (hu : u.rd = true) (size o : Nat) :
    posixRead s f.fd size o = (true, (c.drop o).take (goes s size), drawn s) := by
  unfold posixRead Os.Os.pread
  have hd := (drawn_open h).fd
  have hn := (drawn_open h).node
  have e : s.os.draw = (fate s, (drawn s).os) := rfl
  rw [e]
  simp only [hd, Os.Os.node?, hn]
  rw [if_neg (show ¬ (fate s = .fails ∨ (o : Int) < 0) from fun hh => hh.elim hr (fun hh => by omega))]
  simp only [hu, Bool.true_and, if_true, Int.toNat_natCast]
  rfl

theorem read_refused (h : IsOpen s f n u c p) (hr : fate s = .fails ∨ u.rd = false) (size o : Nat) : posixRead s f.fd size o = (false, [], drawn s) := by
  unfold posixRead Os.Os.pread
  have hd := (drawn_open h).fd
  have hn := (drawn_open h).node
  have e : s.os.draw = (fate s, (drawn s).os) := rfl
  rw [e]
  simp only [hd, Os.Os.node?, hn]
  by_cases hf : fate s = .fails
  · simp [hf, drawn]
  · rw [if_neg (show ¬ (fate s = .fails ∨ (o : Int) < 0) from fun hh => hh.elim hf (fun hh => by omega))]
    simp [hr.resolve_left hf, drawn]

end Verif.Files
