import Verif.Model.Tools
import Verif.Props.FilesBuilder
/-!
# C63 Other programs: what commands are run, and on what

The specification: the words of a command line, and what an editing program does to a disk.
-/
namespace Verif.Tools
open Verif.Os Verif.Files Verif.SB Verif.Fmt

/-- A disk on which file number `n`, named `path`, holds `new`, and which is like `d` otherwise. -/
structure Rewritten (d d' : Disk) (path : Bytes) (n : Nat) (new : Bytes) : Prop where
  here : d'.look path = some n
  node : d'.nodes[n]? = some ⟨true, new⟩
  names : ∀ q, q ≠ path → d'.look q = d.look q
  nodes : ∀ m, m ≠ n → d'.nodes[m]? = d.nodes[m]?

/-- Running `command` edits the file `path`: it turns the text `t` into `f t`, whatever else there is on the disk, and touches nothing else. -/
def Edits (sh : Shell) (command path : Bytes) (f : Bytes → Bytes) : Prop :=
  ∀ (d : Disk) (n : Nat) (t : Bytes), d.look path = some n → d.nodes[n]? = some ⟨true, t⟩ → Rewritten d (sh command d) path n (f t)

/-- The command lines, as one would type them. -/
def clangCommand (path style : Bytes) : Bytes := b!"clang-format -i -verbose -style=file:" ++ style ++ b!" " ++ path
def refactorCommand (path script : Bytes) : Bytes := b!"refactor -num=1 -src=" ++ path ++ b!" -spec=" ++ script ++ b!" "

/-- A C string short enough for the buffer of the formatter. -/
def Arg' (t : Bytes) : Prop := (0 : UInt8) ∉ t ∧ t.length < 131000

/-! ## The commands -/

theorem cView_go (sb : SB) : ∀ (c : Bytes) (i fuel : Nat), (0 : UInt8) ∉ c → (∀ j (h : j < c.length), sb.data[i + j]? = some (some c[j])) →
    sb.data[i + c.length]? = some (some 0) → c.length < fuel → cView.go sb fuel i = .ok c
  | [], i, fuel + 1, _, _, h0, _ => by
    rw [cView.go]
    simp only [SB.read]
    simp only [List.length_nil, Nat.add_zero] at h0
    rw [h0]
    rfl
  | b :: c, i, fuel + 1, hz, hc, h0, hf => by
    have hb := hc 0 (by simp)
    simp only [Nat.add_zero, List.getElem_cons_zero] at hb
    rw [cView.go]
    simp only [SB.read]
    rw [hb]
    show (if b = 0 then _ else _) = _
    rw [if_neg (fun e => hz (by rw [e]; exact List.mem_cons_self ..)), cView_go sb c (i + 1) fuel (fun h => hz (List.mem_cons_of_mem _ h)) ?_ ?_ (by simpa using hf)]
    · rfl
    · intro j hj
      have := hc (j + 1) (by simpa using hj)
      rw [List.getElem_cons_succ, ← Nat.add_assoc, Nat.add_right_comm] at this
      exact this
    · rw [List.length_cons, ← Nat.add_assoc, Nat.add_right_comm] at h0
      exact h0

/-- A builder that is passed as a C string is its text, if that has no NUL byte. -/
theorem cView_holds {sb : SB} {c : Bytes} (h : Holds sb c) (ht : Terminated sb) (h0 : (0 : UInt8) ∉ c) : sb.cView = .ok c := by
  obtain ⟨tail, hd, hl⟩ := h.cells
  unfold cView
  refine cView_go sb c 0 _ h0 (fun j hj => ?_) ?_ ?_
  · rw [hd, Nat.zero_add, List.getElem?_append_left (by simpa using hj)]
    simp [hj]
  · rw [Nat.zero_add, ← h.len]
    exact ht
  · have := h.cap
    have := h.len
    rw [hd]
    simp
    omega

theorem system_run {sh : Shell} {s : Sys} {sb : SB} {c : Bytes} (h : Holds sb c) (ht : Terminated sb) (h0 : (0 : UInt8) ∉ c) :
    system sh s sb = .ok { s with os := s.os.become (sh c s.os.disk) } := by
  unfold system
  simp only [Res.bind_eq]
  rw [cView_holds h ht h0]
  rfl

/-- `%s` with literal text around it. -/
theorem appendArg {lt : Bool} {sb : SB} {c : Bytes} (h : Holds sb c) {pre post t : Bytes} (hp : OkLit pre) (hq : OkLit post) (ht : Arg' t) (hl : pre.length + post.length ≤ 64) :
    ∃ sb', appendFmt lt sb (pre ++ b!"%s" ++ post ++ [0]) [.cstr (some (t ++ [0]))] = .ok (true, sb') ∧ Holds sb' (c ++ (pre ++ t ++ post)) ∧ Terminated sb' := by
  have e : rendered [(pre, Conv.cstr t [])] post = pre ++ t ++ post := by
    show pre ++ (t ++ post) = _
    rw [List.append_assoc]
  have hlen : (rendered [(pre, Conv.cstr t [])] post).length + 2 < printfMax := by
    rw [e]
    have := ht.2
    simp only [List.length_append]
    unfold printfMax
    omega
  have hok : OkFmt [(pre, Conv.cstr t [])] post := ⟨hp, ht.1, (fun h => by cases h), hq⟩
  obtain ⟨b', h3, h4, h5⟩ := appendLen_holds h
    (rendered [(pre, Conv.cstr t [])] post ++ 0 :: List.replicate (printfMax - ((rendered [(pre, Conv.cstr t [])] post).length + 1)) 0) (rendered [(pre, Conv.cstr t [])] post).length (by simp)
  rw [List.take_left] at h4
  have k := C36_append_fmt_partial lt sb [(pre, Conv.cstr t [])] post hok hlen
  have e1 : fmtText [(pre, Conv.cstr t [])] post = pre ++ b!"%s" ++ post ++ [0] := by
    show pre ++ (b!"%s" ++ (post ++ [0])) = _
    simp only [List.append_assoc]
  rw [e1, show fmtArgs [(pre, Conv.cstr t [])] = [.cstr (some (t ++ [0]))] from rfl, h3] at k
  exact ⟨b', k, e ▸ h4, h5⟩

theorem makeStr_holds (t : Bytes) : ∃ sb, makeStr t = .ok sb ∧ Holds sb t ∧ Terminated sb := by
  obtain ⟨sb, h1, h2, h3⟩ := makeLength_holds t t.length (Nat.le_refl _)
  rw [List.take_length] at h2
  exact ⟨sb, h1, h2, h3⟩

/-- C63: `clang_format_file` runs exactly one command, which names the style and the file; nothing but that command changes anything. -/
theorem C63_clang_format {lt : Bool} {sh : Shell} {s : Sys} {path style : Bytes} (hp : (0 : UInt8) ∉ path) (hs : Arg' style) :
    clangFormatFile lt sh s path (some style) = .ok { s with os := s.os.become (sh (clangCommand path style) s.os.disk) } := by
  obtain ⟨p, p1, p2, -⟩ := makeStr_holds path
  obtain ⟨a, a1, a2, -⟩ := makeStr_holds b!"-style=file:"
  obtain ⟨a', b1, b2, -⟩ := appendArg (lt := lt) a2 (pre := []) (post := b!" ") (t := style) ⟨by decide, by decide⟩ ⟨by decide, by decide⟩ hs (by decide)
  obtain ⟨c, c1, c2, -⟩ := makeStr_holds b!"clang-format "
  obtain ⟨c', d1, d2, -⟩ := appendStr_holds c2 b!"-i "
  obtain ⟨c3, e1, e2, -⟩ := appendStr_holds d2 b!"-verbose "
  obtain ⟨c4, f1, f2, -⟩ := appendString_holds e2 b2
  obtain ⟨c5, g1, g2, g3⟩ := appendString_holds f2 p2
  unfold clangFormatFile styleArg
  simp only [Res.bind_eq]
  rw [p1, Res.ok_bind, a1, Res.ok_bind]
  have b1 : appendFmt lt a (b!"%s " ++ [0]) [.cstr (some (style ++ [0]))] = .ok (true, a') := b1
  rw [b1, Res.ok_bind]
  simp only [Res.pure_eq, Res.ok_bind]
  rw [c1, Res.ok_bind, d1, Res.ok_bind]
  simp only []
  rw [e1, Res.ok_bind]
  simp only []
  rw [f1, Res.ok_bind]
  simp only []
  rw [g1, Res.ok_bind]
  simp only []
  have ec : b!"clang-format " ++ b!"-i " ++ b!"-verbose " ++ (b!"-style=file:" ++ ([] ++ style ++ b!" ")) ++ path = clangCommand path style := by
    unfold clangCommand
    simp
  rw [ec] at g2
  refine system_run g2 g3 ?_
  unfold clangCommand
  have := hs.1
  simp only [List.mem_append, not_or]
  exact ⟨⟨⟨by decide, this⟩, by decide⟩, hp⟩

/-- C63: `refactor_file` runs exactly one command, which names the file and the script. -/
theorem C63_refactor {lt : Bool} {sh : Shell} {s : Sys} {path script : Bytes} (hp : Arg' path) (hs : Arg' script) :
    refactorFile lt sh s path script = .ok { s with os := s.os.become (sh (refactorCommand path script) s.os.disk) } := by
  obtain ⟨c, c1, c2, -⟩ := makeStr_holds b!"refactor "
  obtain ⟨c', d1, d2, -⟩ := appendStr_holds c2 b!"-num=1 "
  obtain ⟨a, a1, a2, -⟩ := appendArg (lt := lt) d2 (pre := b!"-src=") (post := b!" ") (t := path) ⟨by decide, by decide⟩ ⟨by decide, by decide⟩ hp (by decide)
  obtain ⟨b, b1, b2, b3⟩ := appendArg (lt := lt) a2 (pre := b!"-spec=") (post := b!" ") (t := script) ⟨by decide, by decide⟩ ⟨by decide, by decide⟩ hs (by decide)
  have a1 : appendFmt lt c' (b!"-src=%s " ++ [0]) [.cstr (some (path ++ [0]))] = .ok (true, a) := a1
  have b1 : appendFmt lt a (b!"-spec=%s " ++ [0]) [.cstr (some (script ++ [0]))] = .ok (true, b) := b1
  unfold refactorFile
  simp only [Res.bind_eq]
  rw [c1, Res.ok_bind, d1, Res.ok_bind]
  simp only []
  rw [a1, Res.ok_bind]
  simp only []
  rw [b1, Res.ok_bind]
  simp only []
  have ec : b!"refactor " ++ b!"-num=1 " ++ (b!"-src=" ++ path ++ b!" ") ++ (b!"-spec=" ++ script ++ b!" ") = refactorCommand path script := by
    unfold refactorCommand
    simp
  rw [ec] at b2
  refine system_run b2 b3 ?_
  unfold refactorCommand
  have h1 := hp.1
  have h2 := hs.1
  simp only [List.mem_append, not_or]
  exact ⟨⟨⟨⟨by decide, h1⟩, by decide⟩, h2⟩, by decide⟩

/-- C63 is false of a style that is null: the program goes through a builder that was never stored. The parameter may be null: the function asks (26). -/
theorem C63_no_style_refuted (lt : Bool) (sh : Shell) (s : Sys) (path : Bytes) : clangFormatFile lt sh s path none = .ub := by
  obtain ⟨p, p1, p2, -⟩ := makeStr_holds path
  unfold clangFormatFile styleArg
  simp only [Res.bind_eq]
  rw [p1, Res.ok_bind]
  rfl

/-- C63 is false of names with spaces: nothing is quoted, and different requests are the same command. -/
theorem C63_unquoted_refuted : clangCommand b!"b c" b!"a" = clangCommand b!"c" b!"a b" ∧ refactorCommand b!"a" b!"b" = b!"refactor -num=1 -src=a -spec=b " ∧
    refactorCommand b!"a -spec=b" b!"c" = refactorCommand b!"a" b!"b -spec=c" := by decide

end Verif.Tools
