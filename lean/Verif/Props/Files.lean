import Verif.Proof.FilesRun
/-!
# C62 Files: reading and writing an open file

The specification is Props/FilesSpec.lean.
-/
namespace Verif.Files
open Verif.Os

variable {s : Sys} {f : FileInfo} {n : Nat} {u : Use} {c : Bytes} {p : Nat}

theorem moved_linux (s : Sys) (fd : Int) (x : Open) (q : Nat) : (moved s fd x q).os.linux = s.os.linux := rfl

theorem wrote_linux (s : Sys) (n at' : Nat) (old d : Bytes) (k : Nat) : (wrote s n at' old d k).os.linux = s.os.linux := (store_rest s.os n at' old d k).2.2

theorem wrote_calm (h : Calm s) (n at' : Nat) (old d : Bytes) (k : Nat) : Calm (wrote s n at' old d k) := (store_rest s.os n at' old d k).2.1.trans h

theorem putsAt_meaning (linux : Bool) (u : Use) (c d : Bytes) (p : Nat) :
    patched c (putsAt linux u c p p) d = if u.append then c ++ d else patched c p d := by
  unfold putsAt
  rw [if_pos rfl]
  split
  · exact patched_end c d
  · rfl

/-- One call. -/
theorem call_run (h : IsOpen s f n u c p) (hc : Calm s) (x : Call) (ha : x.allowed u = true) :
    ∃ s', x.run s f = ((x.meaning u s.os.linux c p).1, { f with ops := true }, s') ∧
      IsOpen s' { f with ops := true } n u (x.meaning u s.os.linux c p).2.1 (x.meaning u s.os.linux c p).2.2 ∧
      OnlyFile s s' n f.fd ∧ Calm s' ∧ s'.os.linux = s.os.linux := by
  have hf : ∀ o : Nat, u.wr = true → refuses s u = false := fun _ hw => by simp [refuses, fate_calm hc, hw]
  cases x with
  | write d =>
    have hw : u.wr = true := ha
    have hr := hf 0 hw
    obtain ⟨at', hat⟩ : ∃ at', at' = putsAt s.os.linux u c p p := ⟨_, rfl⟩
    have h1 := wrote_open h at' d (Nat.le_refl d.length)
    have h2 := (h1.moved (at' + d.length))
    have e : posixWrite s f.fd d p = (true, (d.length : Int), moved (wrote s n at' c d d.length) f.fd (u.at n p) (at' + d.length)) := by
      rw [write_run h hr, if_pos rfl, goes_calm hc, drawn_calm hc, hat]
    have e3 := seek_run h2 (o := (p : Int) + d.length) (by omega)
    have e4 : ((p : Int) + d.length).toNat = p + d.length := by omega
    rw [e4] at e3
    refine ⟨moved (moved (wrote s n at' c d d.length) f.fd (u.at n p) (at' + d.length)) f.fd (u.at n (at' + d.length)) (p + d.length), ?_, ?_, ?_, ?_, ?_⟩
    rotate_left
    · have h3 := h2.moved (p + d.length)
      rw [List.take_length, hat, putsAt_meaning] at h3
      rw [hat]
      exact ⟨h3.fd, h3.node⟩
    · exact (wrote_only s n at' c d d.length f.fd).trans ((h1.only _).trans (h2.only _))
    · exact wrote_calm hc n at' c d d.length
    · exact wrote_linux s n at' c d d.length
    · show (let (ok, f, s) := fileWrite s f d; ((Answer.done ok, f, s) : Answer × FileInfo × Sys)) = _
      unfold fileWrite fileTell fileWriteAt fileSeek
      simp only [tell_run h, Option.getD_some, e, e3]
      rfl
  | writeAt d o =>
    have hw : u.wr = true := ha
    have hr := hf 0 hw
    by_cases ho : o = p
    · subst ho
      obtain ⟨at', hat⟩ : ∃ at', at' = putsAt s.os.linux u c o o := ⟨_, rfl⟩
      have h1 := wrote_open h at' d (Nat.le_refl d.length)
      have h2 := (h1.moved (at' + d.length))
      have e : posixWrite s f.fd d o = (true, (d.length : Int), moved (wrote s n at' c d d.length) f.fd (u.at n o) (at' + d.length)) := by
        rw [write_run h hr, if_pos rfl, goes_calm hc, drawn_calm hc, hat]
      refine ⟨moved (wrote s n at' c d d.length) f.fd (u.at n o) (at' + d.length), ?_, ?_, ?_, ?_, ?_⟩
      · show (let (ok, _, f, s) := fileWriteAt s f d o; ((Answer.done ok, f, s) : Answer × FileInfo × Sys)) = _
        unfold fileWriteAt
        simp only [e, Call.meaning, if_true]
      · rw [List.take_length, hat, putsAt_meaning] at h2
        simp only [Call.meaning, if_true]
        have e5 : at' = if u.append then c.length else o := by rw [hat, putsAt, if_pos rfl]
        rw [e5]
        rw [putsAt, if_pos rfl] at h2
        rw [putsAt, if_pos rfl] at hat
        exact ⟨h2.fd, h2.node⟩
      · exact (wrote_only s n at' c d d.length f.fd).trans (h1.only _)
      · exact wrote_calm hc n at' c d d.length
      · exact wrote_linux s n at' c d d.length
    · obtain ⟨at', hat⟩ : ∃ at', at' = putsAt s.os.linux u c p o := ⟨_, rfl⟩
      have h1 := wrote_open h at' d (Nat.le_refl d.length)
      have e : posixWrite s f.fd d o = (true, (d.length : Int), wrote s n at' c d d.length) := by
        rw [write_run h hr, if_neg ho, goes_calm hc, drawn_calm hc, hat]
      refine ⟨wrote s n at' c d d.length, ?_, ?_, ?_, ?_, ?_⟩
      · show (let (ok, _, f, s) := fileWriteAt s f d o; ((Answer.done ok, f, s) : Answer × FileInfo × Sys)) = _
        unfold fileWriteAt
        simp only [e, Call.meaning, if_neg ho]
      · have e5 : patched c at' d = if u.append && s.os.linux then c ++ d else patched c o d := by
          rw [hat, putsAt, if_neg ho]
          split
          · exact patched_end c d
          · rfl
        rw [List.take_length, e5] at h1
        simp only [Call.meaning, if_neg ho]
        exact ⟨h1.fd, h1.node⟩
      · exact wrote_only s n at' c d d.length f.fd
      · exact wrote_calm hc n at' c d d.length
      · exact wrote_linux s n at' c d d.length
  | read k =>
    have hu : u.rd = true := ha
    have e := read_run h (by rw [fate_calm hc]; decide) hu k p
    rw [goes_calm hc, drawn_calm hc] at e
    have e3 := seek_run h (o := (p : Int) + k) (by omega)
    have e4 : ((p : Int) + k).toNat = p + k := by omega
    rw [e4] at e3
    have h3 := h.moved (p + k)
    refine ⟨moved s f.fd (u.at n p) (p + k), ?_, ⟨h3.fd, h3.node⟩, h.only _, hc, rfl⟩
    show (let (ok, b, f, s) := fileRead s f k; ((Answer.bytes ok b, f, s) : Answer × FileInfo × Sys)) = _
    unfold fileRead fileTell fileReadAt fileSeek
    simp only [tell_run h, Option.getD_some, e, e3]
    rfl
  | readAt k o =>
    have hu : u.rd = true := ha
    have e := read_run h (by rw [fate_calm hc]; decide) hu k o
    rw [goes_calm hc, drawn_calm hc] at e
    refine ⟨s, ?_, ⟨h.fd, h.node⟩, .refl _ _ _, hc, rfl⟩
    show (let (ok, b, f, s) := fileReadAt s f k o; ((Answer.bytes ok b, f, s) : Answer × FileInfo × Sys)) = _
    unfold fileReadAt
    simp only [e]
    rfl
  | seek o =>
    by_cases ho : o < 0
    · refine ⟨s, ?_, ?_, .refl _ _ _, hc, rfl⟩
      · show (let (i, f, s) := fileSeek s f o; ((Answer.number i, f, s) : Answer × FileInfo × Sys)) = _
        unfold fileSeek
        simp only [seek_neg h ho, Call.meaning, if_pos ho, Option.getD_none]
      · simp only [Call.meaning, if_pos ho]
        exact ⟨h.fd, h.node⟩
    · have h3 := h.moved o.toNat
      refine ⟨moved s f.fd (u.at n p) o.toNat, ?_, ?_, h.only _, hc, rfl⟩
      · show (let (i, f, s) := fileSeek s f o; ((Answer.number i, f, s) : Answer × FileInfo × Sys)) = _
        unfold fileSeek
        simp only [seek_run h (show 0 ≤ o by omega), Call.meaning, if_neg ho, Option.getD_some]
      · simp only [Call.meaning, if_neg ho]
        exact ⟨h3.fd, h3.node⟩
  | seekEnd =>
    have h3 := h.moved c.length
    refine ⟨moved s f.fd (u.at n p) c.length, ?_, ⟨h3.fd, h3.node⟩, h.only _, hc, rfl⟩
    show (let (i, f, s) := fileSeekToEnd s f; ((Answer.number i, f, s) : Answer × FileInfo × Sys)) = _
    unfold fileSeekToEnd
    simp only [end_run h, Option.getD_some]
    rfl
  | tell =>
    refine ⟨s, ?_, ⟨h.fd, h.node⟩, .refl _ _ _, hc, rfl⟩
    show (let (i, f, s) := fileTell s f; ((Answer.number i, f, s) : Answer × FileInfo × Sys)) = _
    unfold fileTell
    simp only [tell_run h, Option.getD_some]
    rfl
  | size =>
    have h1 := h.moved c.length
    have h3 := h1.moved p
    refine ⟨moved (moved s f.fd (u.at n p) c.length) f.fd (u.at n c.length) p, ?_, ⟨h3.fd, h3.node⟩, (h.only _).trans (h1.only _), hc, rfl⟩
    show (let (i, f, s) := fileSize s f; ((Answer.number i, f, s) : Answer × FileInfo × Sys)) = _
    have e1 := tell_run h1
    have e2 := seek_run h1 (o := (p : Int)) (by omega)
    rw [Int.toNat_natCast] at e2
    unfold fileSize fileTell fileSeekToEnd fileSeek
    simp only [tell_run h, end_run h, e1, e2, Option.getD_some]
    rfl

/-- C62: an open file is the bytes it holds and a position. Every history of allowed calls answers as `Call.meaning` says, leaves the file with the bytes
and the position it says, and no other file, name or descriptor changes, at no moment. -/
theorem C62_history (h : IsOpen s f n u c p) (hc : Calm s) (l : List Call) (ha : ∀ x ∈ l, x.allowed u = true) :
    ∃ f' s', runAll s f l = ((meaningAll u s.os.linux c p l).1, f', s') ∧
      IsOpen s' f' n u (meaningAll u s.os.linux c p l).2.1 (meaningAll u s.os.linux c p l).2.2 ∧ f'.fd = f.fd ∧ f'.filename = f.filename ∧ OnlyFile s s' n f.fd := by
  induction l generalizing s f c p with
  | nil => exact ⟨f, s, rfl, h, rfl, rfl, .refl _ _ _⟩
  | cons x l ih =>
    obtain ⟨s1, e1, h1, o1, c1, l1⟩ := call_run h hc x (ha x (List.mem_cons_self ..))
    obtain ⟨f2, s2, e2, h2, hfd, hfn, o2⟩ := ih h1 c1 (fun y hy => ha y (List.mem_cons_of_mem _ hy))
    rw [l1] at e2 h2
    refine ⟨f2, s2, ?_, h2, hfd, hfn, o1.trans o2⟩
    show (let (a, f, s) := x.run s f; let (as, f, s) := runAll s f l; ((a :: as, f, s) : List Answer × FileInfo × Sys)) = _
    rw [e1]
    show (let (as, f, s) := runAll s1 { f with ops := true } l; ((_ :: as, f, s) : List Answer × FileInfo × Sys)) = _
    rw [e2]
    rfl

end Verif.Files
