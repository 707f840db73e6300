import Verif.Props.FilesOpen
/-! # C62 Files: writes that the system refuses or cuts off, and processes that are killed -/
namespace Verif.Files
open Verif.Os

variable {s : Sys} {f : FileInfo} {n : Nat} {u : Use} {c : Bytes} {p : Nat}

/-- Where a file takes the bytes of `file_write`: at its end if it was opened for appending, otherwise at the position. -/
def takes (u : Use) (c : Bytes) (p : Nat) (d : Bytes) : Bytes := if u.append then c ++ d else patched c p d

theorem takes_nil (u : Use) (c : Bytes) (p : Nat) : takes u c p [] = c := by
  unfold takes
  split
  · simp
  · exact patched_nil p c

/-- C62: whatever the system does, `file_write` stores a beginning of the bytes and touches nothing else. If it answers false, nothing has been stored; it
answers false exactly if the system refuses the write or the file was not opened for writing. A process that is killed leaves a beginning of these bytes. -/
theorem C62_write_any (h : IsOpen s f n u c p) (d : Bytes) :
    ∃ ok k s', fileWrite s f d = (ok, { f with ops := true }, s') ∧ k ≤ d.length ∧ IsOpen s' { f with ops := true } n u (takes u c p (d.take k)) (p + d.length) ∧
      OnlyFile s s' n f.fd ∧ (ok = false ↔ nextFate s = .fails ∨ u.wr = false) ∧ (ok = false → k = 0) ∧ (nextFate s = .full → ok = true → k = d.length) ∧
      s'.os.fates = s.os.fates.tail ∧
      ∀ x ∈ s'.os.history, x ∈ s.os.history ∨ ∃ j, j ≤ k ∧ x.nodes[n]? = some ⟨true, takes u c p (d.take j)⟩ := by
  have hft : s.os.fates.drop 1 = s.os.fates.tail := by simp
  have e4 : ((p : Int) + d.length).toNat = p + d.length := by omega
  by_cases hr : refuses s u = true
  · have hd := drawn_open h
    have e3 := seek_run hd (o := (p : Int) + d.length) (by omega)
    rw [e4] at e3
    have h3 := hd.moved (p + d.length)
    refine ⟨false, 0, moved (drawn s) f.fd (u.at n p) (p + d.length), ?_, Nat.zero_le _, ?_, (drawn_only s n f.fd).trans (hd.only _), ?_, fun _ => rfl, (fun _ hh => by cases hh), hft, fun x hx => .inl hx⟩
    · unfold fileWrite fileTell fileWriteAt fileSeek
      simp only [tell_run h, Option.getD_some, write_refused h hr, e3]
    · rw [List.take_zero, takes_nil]
      exact ⟨h3.fd, h3.node⟩
    · refine ⟨fun _ => ?_, fun _ => rfl⟩
      have : fate s = .fails ∨ u.wr = false := by simpa [refuses] using hr
      exact this
  · have hr : refuses s u = false := by simpa using hr
    obtain ⟨at', hat⟩ : ∃ at', at' = putsAt s.os.linux u c p p := ⟨_, rfl⟩
    obtain ⟨k, hk⟩ : ∃ k, k = goes s d.length := ⟨_, rfl⟩
    have hkl : k ≤ d.length := hk ▸ goes_le s _
    have hd := drawn_open h
    have h1 := wrote_open hd at' d hkl
    have h2 := h1.moved (at' + k)
    have e : posixWrite s f.fd d p = (true, (k : Int), moved (wrote (drawn s) n at' c d k) f.fd (u.at n p) (at' + k)) := by
      rw [write_run h hr, if_pos rfl, hat, hk]
    have e3 := seek_run h2 (o := (p : Int) + d.length) (by omega)
    rw [e4] at e3
    have hp : ∀ j, patched c at' (d.take j) = takes u c p (d.take j) := fun j => by rw [hat, putsAt_meaning]; rfl
    refine ⟨true, k, moved (moved (wrote (drawn s) n at' c d k) f.fd (u.at n p) (at' + k)) f.fd (u.at n (at' + k)) (p + d.length), ?_, hkl, ?_, ?_, ?_, ?_, ?_, ?_, ?_⟩
    · unfold fileWrite fileTell fileWriteAt fileSeek
      simp only [tell_run h, Option.getD_some, e, e3]
    · have h3 := h2.moved (p + d.length)
      rw [hp] at h3
      exact ⟨h3.fd, h3.node⟩
    · exact (drawn_only s n f.fd).trans ((wrote_only (drawn s) n at' c d k f.fd).trans ((h1.only _).trans (h2.only _)))
    · obtain ⟨hf, hw⟩ : fate s ≠ .fails ∧ u.wr = true := by simpa [refuses] using hr
      refine ⟨fun hh => (by cases hh), fun hh => ?_⟩
      rcases hh with hh | hh
      · exact absurd hh hf
      · rw [hw] at hh
        cases hh
    · intro hh; cases hh
    · intro hh _
      rw [hk]
      unfold goes
      rw [show fate s = .full from hh]
      rfl
    · exact ((store_rest (drawn s).os n at' c d k).2.1).trans hft
    · intro x hx
      rcases store_history (drawn s).os n at' c d k hx with hx | ⟨j, hj, hjk, rfl⟩
      · exact .inl hx
      · refine .inr ⟨j, hjk, ?_⟩
        rw [put_nodes, if_pos rfl, show (drawn s).os.disk.nodes[n]? = some ⟨true, c⟩ from h.node, stored_patched, hp]
        · rfl
        · intro hh
          have := congrArg List.length hh
          rw [List.length_take, List.length_nil] at this
          omega

/-! ## Standard files, and others without a position -/

/-- A file without a position (a terminal, a pipe) that has received the bytes `c`. -/
structure IsStream (s : Sys) (f : FileInfo) (n : Nat) (c : Bytes) : Prop where
  fd : ∃ p rd ap, s.os.descr f.fd = some ⟨n, p, rd, true, ap⟩
  node : s.os.disk.nodes[n]? = some ⟨false, c⟩

theorem stream_seek (h : IsStream s f n c) (o : Int) (w : Whence) : posixSeek s f.fd o w = (false, none, s) := by
  obtain ⟨p, rd, ap, hf⟩ := h.fd
  unfold posixSeek Os.Os.lseek
  simp only [hf, Os.Os.node?, h.node]
  rfl

/-- C62: to a file without a position, `file_write` hands the bytes, all of them and in order, if the system makes no trouble. -/
theorem C62_stream_write (h : IsStream s f n c) (hc : Calm s) (d : Bytes) :
    ∃ s', fileWrite s f d = (true, { f with ops := true }, s') ∧ IsStream s' { f with ops := true } n (c ++ d) ∧ OnlyFile s s' n f.fd ∧ Calm s' := by
  obtain ⟨p, rd, ap, hf⟩ := h.fd
  have e : posixWrite s f.fd d 0 = (true, (d.length : Int), wrote s n c.length c d d.length) := by
    unfold posixWrite
    rw [stream_seek h]
    simp only [Option.getD_none, if_true]
    unfold Os.Os.write
    have e1 : s.os.draw = (.full, (drawn s).os) := by rw [← fate_calm hc]; rfl
    rw [e1, drawn_calm hc]
    simp only [hf, Os.Os.node?, h.node, Bool.not_false, Bool.or_true, if_true, Os.Os.granted]
    rw [if_neg (by show ¬ ((d.length : Nat) : Int) < 0; omega)]
    rfl
  have h1 : IsStream (wrote s n c.length c d d.length) f n (c ++ d) := by
    refine ⟨⟨p, rd, ap, ?_⟩, ?_⟩
    · show Os.Os.descr (s.os.store n c.length c d d.length) f.fd = _
      unfold Os.Os.descr
      rw [(store_rest s.os n c.length c d d.length).1]
      exact hf
    · show (s.os.store n c.length c d d.length).disk.nodes[n]? = _
      rw [store_disk]
      split
      · rename_i h0
        rw [h.node, List.eq_nil_of_length_eq_zero h0, List.append_nil]
      · rename_i h0
        rw [put_nodes, if_pos rfl, h.node, List.take_length, stored_patched _ _ (by intro hh; rw [hh] at h0; exact h0 rfl), patched_end]
        rfl
  refine ⟨wrote s n c.length c d d.length, ?_, ⟨h1.fd, h1.node⟩, wrote_only s n c.length c d d.length f.fd, wrote_calm hc n c.length c d d.length⟩
  unfold fileWrite fileTell fileWriteAt fileSeek
  simp only [stream_seek h, Option.getD_none, e, stream_seek h1]

/-- C62: so a history of writes delivers the concatenation. -/
theorem C62_stream_history (h : IsStream s f n c) (hc : Calm s) (l : List Bytes) :
    ∃ f' s', l.foldl (fun x d => (fileWrite x.2 x.1 d).2) (f, s) = (f', s') ∧ IsStream s' f' n (c ++ l.flatten) ∧ OnlyFile s s' n f.fd := by
  induction l generalizing s f c with
  | nil => exact ⟨f, s, rfl, by simpa using h, .refl _ _ _⟩
  | cons d l ih =>
    obtain ⟨s1, e1, h1, o1, c1⟩ := C62_stream_write h hc d
    obtain ⟨f2, s2, e2, h2, o2⟩ := ih h1 c1
    refine ⟨f2, s2, ?_, ?_, o1.trans o2⟩
    · rw [List.foldl_cons, e1]
      exact e2
    · rw [List.flatten_cons, ← List.append_assoc]
      exact h2

/-- C62: the standard files are the descriptors 0, 1 and 2, whenever one asks. -/
theorem C62_standard (s : Sys) (a b c : FileInfo) (hs : s.std = [a, b, c]) (h : s.stdSet = true → ∀ i : Nat, i < 3 → (s.std[i]?).map (·.fd) = some (i : Int)) :
    (fileGetStandard s).stdSet = true ∧ (∀ i : Nat, i < 3 → ((fileGetStandard s).std[i]?).map (·.fd) = some (i : Int)) ∧ (fileGetStandard s).os = s.os ∧
      (fileGetStandard s).heap = s.heap := by
  unfold fileGetStandard
  split
  · rename_i hh
    exact ⟨hh, h hh, rfl, rfl⟩
  · refine ⟨rfl, fun i hi => ?_, rfl, rfl⟩
    rw [hs]
    match i, hi with
    | 0, _ => rfl
    | 1, _ => rfl
    | 2, _ => rfl

/-! ## What is false -/

/-- A process with one open file, descriptor 0. -/
def one (u : Use) (c : Bytes) (p : Nat) (fates : List Fate) : Sys :=
  ⟨⟨⟨[(b!"a", 0)], [⟨true, c⟩]⟩, [some (u.at 0 p)], fates, true, []⟩, [some b!"a"], false, []⟩

def oneFile : FileInfo := ⟨true, 0, false, some 0⟩

theorem one_open (u : Use) (c : Bytes) (p : Nat) (fates : List Fate) : IsOpen (one u c p fates) oneFile 0 u c p := ⟨rfl, rfl⟩

/-- A history that meets the hypotheses of `C62_history`. -/
example : ∃ f' s', runAll (one ⟨true, true, false⟩ b!"abc" 1 []) oneFile [.write b!"xyz", .seek 0, .read 2, .size, .writeAt b!"!" 5, .tell] =
      ([.done true, .number 0, .bytes true b!"ax", .number 4, .done true, .number 2], f', s') ∧
      IsOpen s' f' 0 ⟨true, true, false⟩ b!"axyz\x00!" 2 := by
  obtain ⟨f', s', h1, h2, -⟩ := C62_history (one_open ⟨true, true, false⟩ b!"abc" 1 []) rfl
    [.write b!"xyz", .seek 0, .read 2, .size, .writeAt b!"!" 5, .tell] (by intro x hx; simp at hx; rcases hx with rfl | rfl | rfl | rfl | rfl | rfl <;> rfl)
  exact ⟨f', s', h1, h2⟩

/-- C62 is false of a write that the system cuts off: `file_write` answers that it has written, and stands behind bytes that are not there. -/
theorem C62_short_write_refuted : ∃ s', fileWrite (one ⟨false, true, false⟩ [] 0 [.atMost 1]) oneFile b!"abc" = (true, oneFile, s') ∧
    s'.file b!"a" = some b!"a" ∧ (fileTell s' oneFile).1 = 3 := ⟨_, rfl, by decide, by decide⟩

/-- C62 is false of a write that fails: the position moves all the same, so the next write leaves a hole of zeros. -/
theorem C62_failed_write_refuted : ∃ s' s'', fileWrite (one ⟨false, true, false⟩ [] 0 [.fails]) oneFile b!"ab" = (false, oneFile, s') ∧
    fileWrite s' oneFile b!"c" = (true, oneFile, s'') ∧ s''.file b!"a" = some b!"\x00\x00c" := ⟨_, _, rfl, rfl, by decide⟩

/-- C62 is false of reading over the end: `file_read` answers that it has read, and the position moves behind the end, so the next write leaves a hole. -/
theorem C62_read_over_end_refuted : ∃ s' s'', fileRead (one ⟨true, true, false⟩ b!"a" 0 []) oneFile 3 = (true, b!"a", oneFile, s') ∧
    fileWrite s' oneFile b!"c" = (true, oneFile, s'') ∧ s''.file b!"a" = some b!"a\x00\x00c" := ⟨_, _, rfl, rfl, by decide⟩

/-- C62 is false of a file opened for appending: `file_tell` tells how many bytes were written, not where they are. -/
theorem C62_append_tell_refuted : ∃ s', fileWrite (one ⟨false, true, true⟩ b!"abc" 0 []) oneFile b!"d" = (true, oneFile, s') ∧
    s'.file b!"a" = some b!"abcd" ∧ (fileTell s' oneFile).1 = 1 := ⟨_, rfl, by decide, by decide⟩

/-- C62 is false of `file_write_at` at the position: it moves the position, which it does nowhere else. -/
theorem C62_write_at_moves_refuted : (∃ s', fileWriteAt (one ⟨false, true, false⟩ b!"abc" 1 []) oneFile b!"x" 1 = (true, 1, oneFile, s') ∧ (fileTell s' oneFile).1 = 2) ∧
    ∃ s', fileWriteAt (one ⟨false, true, false⟩ b!"abc" 1 []) oneFile b!"x" 2 = (true, 1, oneFile, s') ∧ (fileTell s' oneFile).1 = 1 :=
  ⟨⟨_, rfl, by decide⟩, _, rfl, by decide⟩

/-- C62 is false of seeking in front of the beginning: `file_seek` answers 0, and the position is where it was. -/
theorem C62_seek_refuted : ∃ s', fileSeek (one ⟨true, false, false⟩ b!"abc" 2 []) oneFile (-1) = (0, oneFile, s') ∧ (fileTell s' oneFile).1 = 2 := ⟨_, rfl, by decide⟩

end Verif.Files
