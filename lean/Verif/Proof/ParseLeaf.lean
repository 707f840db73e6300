import Verif.Proof.ParseHeap
import Verif.Proof.SerWrites
/-!
# Searches that end
-/
namespace Verif

theorem Res.bind_ne_hang {α β : Type} {x : Res α} {f : α → Res β} (hx : x ≠ .hang) (hf : ∀ a, x = .ok a → f a ≠ .hang) : x.bind f ≠ .hang := by
  cases x with
  | ok a => exact hf a rfl
  | hang => exact (hx rfl).elim
  | _ => exact fun h => nomatch h

theorem Res.ofOption_ne_hang {α : Type} {x : Option α} : Res.ofOption x ≠ .hang := by cases x <;> exact fun h => nomatch h

namespace CStr
theorem compareLen_ne_hang {lt : Bool} : ∀ {a b : Bytes} {n : Nat}, compareLen lt a b n ≠ .hang
  | _, _, 0 => by unfold compareLen; exact fun h => nomatch h
  | a :: as, b :: bs, n + 1 => by
    unfold compareLen
    split
    · exact fun h => nomatch h
    · split
      · exact fun h => nomatch h
      · exact compareLen_ne_hang
  | [], _, _ + 1 => by unfold compareLen; exact fun h => nomatch h
  | _ :: _, [], _ + 1 => by unfold compareLen; exact fun h => nomatch h
end CStr

namespace Str
theorem containsLoop_ne_hang {lt : Bool} {s sub : Bytes} : ∀ {k i : Nat}, containsLoop lt s sub k i ≠ .hang
  | 0, _ => fun h => nomatch h
  | k + 1, i => by
    unfold containsLoop
    refine Res.bind_ne_hang CStr.compareLen_ne_hang fun r _ => ?_
    split
    · exact fun h => nomatch h
    · exact containsLoop_ne_hang

theorem contains_ne_hang {lt : Bool} {s sub : Bytes} : contains lt s sub ≠ .hang := by
  unfold contains
  split
  · exact fun h => nomatch h
  · exact containsLoop_ne_hang
end Str

namespace Strip

theorem le_stringEnd {raw : Bytes} : ∀ {n p : Nat}, p ≤ stringEnd raw n p
  | 0, _ => Nat.le_refl _
  | n + 1, p => by
    unfold stringEnd
    split
    · exact Nat.le_refl _
    · split
      · exact Nat.le_refl _
      · split
        · exact Nat.le_trans (by omega) le_stringEnd
        · exact Nat.le_trans (by omega) le_stringEnd

theorem le_charEnd {raw : Bytes} : ∀ {n p : Nat}, p ≤ charEnd raw n p
  | 0, _ => Nat.le_refl _
  | n + 1, p => by
    unfold charEnd
    split
    · exact Nat.le_refl _
    · split
      · exact Nat.le_refl _
      · exact Nat.le_trans (by omega) le_charEnd

theorem le_blockEnd {raw : Bytes} : ∀ {n p : Nat}, p ≤ blockEnd raw n p
  | 0, _ => Nat.le_refl _
  | n + 1, p => by
    unfold blockEnd
    split
    · exact Nat.le_trans (by omega) le_blockEnd
    · exact Nat.le_refl _

theorem le_lineEnd {raw : Bytes} : ∀ {n p : Nat}, p ≤ lineEnd raw n p
  | 0, _ => Nat.le_refl _
  | n + 1, p => by
    unfold lineEnd
    split
    · exact Nat.le_trans (by omega) le_lineEnd
    · exact Nat.le_refl _

theorem le_spaceEnd {raw : Bytes} : ∀ {n p : Nat}, p ≤ spaceEnd raw n p
  | 0, _ => Nat.le_refl _
  | n + 1, p => by
    unfold spaceEnd
    split
    · exact Nat.le_refl _
    · split
      · exact Nat.le_trans (by omega) le_spaceEnd
      · exact Nat.le_refl _

theorem backslash_pos {raw : Bytes} {s : St} : s.pos < (s.backslash raw).pos := by
  unfold St.backslash
  dsimp only
  generalize (if raw[s.pos + 1]? = some 10 then 2 else if raw[s.pos + 1]? = some 13 ∧ raw[s.pos + 2]? = some 10 then 3 else 1) = skip
  split <;> omega

/-- Every turn moves the scanner. -/
theorem step_pos {raw : Bytes} {preserve : Bool} {s : St} {b : UInt8} : s.pos < (step raw preserve s b).pos := by
  have h1 := le_stringEnd (raw := raw) (n := raw.length + 1) (p := s.pos + 1)
  have h2 := le_charEnd (raw := raw) (n := raw.length + 1) (p := s.pos + 1)
  have h3 := le_blockEnd (raw := raw) (n := raw.length + 1) (p := s.pos)
  have h4 := le_lineEnd (raw := raw) (n := raw.length + 1) (p := s.pos + 2)
  have h5 := le_spaceEnd (raw := raw) (n := raw.length + 1) (p := s.pos + 1)
  have h6 := backslash_pos (raw := raw) (s := s)
  unfold step
  dsimp only
  split
  · show s.pos < if stringEnd raw (raw.length + 1) (s.pos + 1) < raw.length then stringEnd raw (raw.length + 1) (s.pos + 1) + 1
      else stringEnd raw (raw.length + 1) (s.pos + 1)
    split <;> omega
  split
  · show s.pos < if charEnd raw (raw.length + 1) (s.pos + 1) < raw.length then charEnd raw (raw.length + 1) (s.pos + 1) + 1
      else charEnd raw (raw.length + 1) (s.pos + 1)
    split <;> omega
  split
  · show s.pos < _ + 2
    omega
  split
  · show s.pos < if lineEnd raw (raw.length + 1) (s.pos + 2) < raw.length then lineEnd raw (raw.length + 1) (s.pos + 2) + 1
      else lineEnd raw (raw.length + 1) (s.pos + 2)
    split <;> omega
  split
  · show s.pos < s.pos + 1
    omega
  split
  · split
    · show s.pos < s.pos + 2
      omega
    · show s.pos < s.pos + 2
      omega
  split
  · split
    · show s.pos < s.pos + 1
      omega
    · show s.pos < s.pos + 1
      omega
  split
  · exact h6
  split
  · show s.pos < spaceEnd raw (raw.length + 1) (s.pos + 1)
    omega
  · show s.pos < s.pos + 1
    omega

theorem loop_ne_hang {raw : Bytes} {preserve : Bool} : ∀ {n : Nat} {s : St}, raw.length ≤ s.pos + n → loop raw preserve (n + 1) s ≠ .hang := by
  intro n
  induction n with
  | zero =>
    intro s h
    unfold loop
    split
    · exact fun h => nomatch h
    · rw [List.getElem?_eq_none (by omega)]
      exact fun h => nomatch h
  | succ n ih =>
    intro s h
    unfold loop
    split
    · exact fun h => nomatch h
    · split
      · exact fun h => nomatch h
      · apply ih
        have := step_pos (raw := raw) (preserve := preserve) (s := s) (b := ‹_›)
        omega

/-- `parser_strip_formatting` ends. -/
theorem strip_ne_hang {raw : Bytes} {preserve : Bool} : strip raw preserve ≠ .hang := by
  unfold strip
  split
  · exact fun h => nomatch h
  · exact Res.bind_ne_hang (loop_ne_hang (n := raw.length + 1) (by omega)) fun _ _ h => nomatch h

end Strip

namespace Parse
open Verif.Lex (Tok)
open Verif.Ast
variable {c : Ctx} {α β σ : Type}

theorem fmtText_ne_hang {t : Bytes} : fmtText t ≠ .hang := by
  unfold fmtText
  split <;> exact fun h => nomatch h

theorem lastCapture_ne_hang {cells : List Tok} {i : Nat} : lastCapture cells i ≠ .hang := by
  unfold lastCapture
  split
  · exact fun h => nomatch h
  · split <;> exact fun h => nomatch h

theorem operatorAhead_ne_hang {cells : List Tok} {num : Nat} : ∀ {n i : Nat}, cells.length ≤ i + n → operatorAhead cells num (n + 1) i ≠ .hang := by
  intro n
  induction n using Nat.strongRecOn with
  | _ n ih =>
    intro i h
    unfold operatorAhead
    split
    · refine Res.bind_ne_hang Res.ofOption_ne_hang fun t ht => ?_
      have hi : i < cells.length := by
        rcases Nat.lt_or_ge i cells.length with hi | hi
        · exact hi
        · rw [List.getElem?_eq_none hi] at ht
          cases ht
      split
      · refine Res.bind_ne_hang Res.ofOption_ne_hang fun u _ => ?_
        split
        · obtain ⟨m, rfl⟩ : ∃ m, n = m + 1 := ⟨n - 1, by omega⟩
          exact ih m (by omega) (by omega)
        · exact fun h => nomatch h
      · exact fun h => nomatch h
    · exact fun h => nomatch h

theorem ite_ne_hang {b : Prop} [Decidable b] {x y : Res α} (hx : b → x ≠ .hang) (hy : ¬ b → y ≠ .hang) : (if b then x else y) ≠ .hang := by
  split
  · exact hx ‹_›
  · exact hy ‹_›

theorem closeAhead_ne_hang {cells : List Tok} {num : Nat} : ∀ {n i : Nat} {l : Int}, cells.length ≤ i + n → closeAhead cells num (n + 1) i l ≠ .hang := by
  intro n
  induction n using Nat.strongRecOn with
  | _ n ih =>
    intro i l h
    unfold closeAhead
    split
    · refine Res.bind_ne_hang Res.ofOption_ne_hang fun t ht => ?_
      have hi : i < cells.length := by
        rcases Nat.lt_or_ge i cells.length with hi | hi
        · exact hi
        · rw [List.getElem?_eq_none hi] at ht
          cases ht
      refine ite_ne_hang (fun _ h => nomatch h) fun _ => ?_
      obtain ⟨m, rfl⟩ : ∃ m, n = m + 1 := ⟨n - 1, by omega⟩
      exact ih m (by omega) (by omega)
    · exact fun h => nomatch h

theorem statementEnd_ne_hang {cells : List Tok} {num : Nat} : ∀ {n i : Nat} {l : Int}, cells.length ≤ i + n →
    statementEnd cells num (n + 1) i l ≠ .hang := by
  intro n
  induction n using Nat.strongRecOn with
  | _ n ih =>
    intro i l h
    unfold statementEnd
    split
    · refine Res.bind_ne_hang Res.ofOption_ne_hang fun t ht => ?_
      have hi : i < cells.length := by
        rcases Nat.lt_or_ge i cells.length with hi | hi
        · exact hi
        · rw [List.getElem?_eq_none hi] at ht
          cases ht
      refine ite_ne_hang (fun _ h => nomatch h) fun _ => ?_
      obtain ⟨m, rfl⟩ : ∃ m, n = m + 1 := ⟨n - 1, by omega⟩
      exact ih m (by omega) (by omega)
    · exact fun h => nomatch h

theorem skipTemplate_spec {mem : Bytes} {cells : List Tok} {num : Nat} : ∀ {n i : Nat} {nav : Tok} {l : Int}, num ≤ i + n →
    skipTemplate mem cells num (n + 1) i nav l ≠ .hang ∧ ∀ r, skipTemplate mem cells num (n + 1) i nav l = .ok r → i ≤ r.1 := by
  intro n
  induction n using Nat.strongRecOn with
  | _ n ih =>
    intro i nav l h
    rw [skipTemplate.eq_def]
    dsimp only
    split
    · have key : ∀ m nav' l', n = m + 1 → skipTemplate mem cells num n (i + 1) nav' l' ≠ .hang ∧
          ∀ r, skipTemplate mem cells num n (i + 1) nav' l' = .ok r → i ≤ r.1 := by
        rintro m nav' l' rfl
        have := ih m (by omega) (i := i + 1) (nav := nav') (l := l') (by omega)
        exact ⟨this.1, fun r hr => by have := this.2 r hr; omega⟩
      refine ⟨?_, ?_⟩
      · refine Res.bind_ne_hang Res.ofOption_ne_hang fun b _ => Res.bind_ne_hang ?_ fun b1 _ => ?_
        · split
          · exact Res.ofOption_ne_hang
          · exact fun h => nomatch h
        · refine ite_ne_hang (fun _ h => nomatch h) fun _ => ?_
          exact Res.bind_ne_hang Res.ofOption_ne_hang fun nav' _ => (key (n - 1) nav' _ (by omega)).1
      · intro r hr
        obtain ⟨b, -, hr⟩ := Res.bind_eq_ok.mp hr
        obtain ⟨b1, -, hr⟩ := Res.bind_eq_ok.mp hr
        generalize (if b = 62 then (if b = 60 then l + 1 else l) - 1 else if b = 60 then l + 1 else l) = l1 at hr
        generalize (if nav.type = .Operator ∧ b1 = 62 then l1 - 1 else l1) = l2 at hr
        split at hr
        · injection hr with hr
          subst hr
          exact Nat.le_refl _
        · obtain ⟨nav', -, hr⟩ := Res.bind_eq_ok.mp hr
          exact (key (n - 1) nav' _ (by omega)).2 r hr
    · refine ⟨(fun h => nomatch h), fun r hr => ?_⟩
      injection hr with hr
      subst hr
      exact Nat.le_refl _

theorem parenAhead_ne_hang {mem : Bytes} {cells : List Tok} {num : Nat} : ∀ {n i : Nat} {nav : Tok}, num ≤ i + n →
    parenAhead mem cells num (n + 1) i nav ≠ .hang := by
  intro n
  induction n using Nat.strongRecOn with
  | _ n ih =>
    intro i nav h
    rw [parenAhead.eq_def]
    dsimp only
    split
    · refine Res.bind_ne_hang Res.ofOption_ne_hang fun b _ => ?_
      have hs : ∀ x : Res (Nat × Tok), x = (if b = 60 then skipTemplate mem cells num (num + 1) i nav 0 else .ok (i, nav)) →
          x ≠ .hang ∧ ∀ r, x = .ok r → i ≤ r.1 := by
        rintro x rfl
        split
        · exact skipTemplate_spec (by omega)
        · exact ⟨(fun h => nomatch h), fun r hr => by injection hr with hr; subst hr; exact Nat.le_refl _⟩
      have hs := hs _ rfl
      refine Res.bind_ne_hang hs.1 fun r hr => ?_
      have := hs.2 r hr
      split
      · exact fun h => nomatch h
      · refine Res.bind_ne_hang Res.ofOption_ne_hang fun nav' _ => ?_
        obtain ⟨m, rfl⟩ : ∃ m, n = m + 1 := ⟨n - 1, by omega⟩
        exact ih m (by omega) (by omega)
    · exact fun h => nomatch h

theorem ok_ne_hang {a : α} : Res.ok a ≠ .hang := fun h => nomatch h
theorem ub_ne_hang : (Res.ub : Res α) ≠ .hang := fun h => nomatch h

theorem levelsBefore_ne_hang {mem : Bytes} {t : Tok} {a b : Int} : levelsBefore mem t a b ≠ .hang := by
  refine Res.bind_ne_hang Res.ofOption_ne_hang fun _ _ => Res.bind_ne_hang ?_ fun _ _ => ok_ne_hang
  exact ite_ne_hang (fun _ => Res.ofOption_ne_hang) fun _ => ok_ne_hang

theorem identBefore_ne_hang {mem : Bytes} {cells : List Tok} {start : Nat} : ∀ {i : Nat} {a b : Int}, identBefore mem cells start i a b ≠ .hang := by
  intro i
  induction i with
  | zero =>
    intro a b
    unfold identBefore
    refine Res.bind_ne_hang Res.ofOption_ne_hang fun t _ => ite_ne_hang (fun _ => ok_ne_hang) fun _ => Res.bind_ne_hang levelsBefore_ne_hang fun _ _ => ?_
    exact ite_ne_hang (fun _ => ok_ne_hang) fun _ => ub_ne_hang
  | succ i ih =>
    intro a b
    unfold identBefore
    refine Res.bind_ne_hang Res.ofOption_ne_hang fun t _ => ite_ne_hang (fun _ => ok_ne_hang) fun _ => Res.bind_ne_hang levelsBefore_ne_hang fun _ _ => ?_
    exact ite_ne_hang (fun _ => ok_ne_hang) fun _ => ih

theorem each_ne_hang {f : α → Bytes → Res Bytes} (hf : ∀ i r, ∃ r', f i r = .ok r') : ∀ (l : List α) (r : Bytes), Ser.each f l r ≠ .hang
  | [], _, h => nomatch h
  | i :: l, r, h => by
    unfold Ser.each Ser.seq at h
    obtain ⟨r', hr⟩ := hf i r
    rw [hr, Res.ok_bind] at h
    exact each_ne_hang hf l r' h

open Ser in
theorem specifiersRef_ne_hang {e : Ser.Env} {p : Nat} : Ser.specifiersRef e p [] ≠ .hang := by
  unfold Ser.specifiersRef Ser.reading
  refine Res.bind_ne_hang ?_ fun _ _ => Res.bind_ne_hang ?_ fun n _ => ?_
  · unfold Res.assert; split <;> exact fun h => nomatch h
  · unfold Heap.get; split <;> exact fun h => nomatch h
  · have one : ∀ (i : Specifier × Nat) (r : Bytes), ∃ r', (Ser.opt (i.2 > 0 ∧ i.1 ≠ .Ptr ∧ i.1 ≠ .Ref ∧ i.1 ≠ .RValue) (Ser.str b!" ") ++>
        e.fmt b!"%S" [.str (some (specToStr i.1 ++ [0])) (specToStr i.1).length]) r = .ok r' := by
      intro i r
      have hg : EG (fun _ => Ser.opt (i.2 > 0 ∧ i.1 ≠ .Ptr ∧ i.1 ≠ .Ref ∧ i.1 ≠ .RValue) (Ser.str b!" ") ++>
          e.fmt b!"%S" [.str (some (specToStr i.1 ++ [0])) (specToStr i.1).length])
          (ifText (i.2 > 0 ∧ i.1 ≠ .Ptr ∧ i.1 ≠ .Ref ∧ i.1 ≠ .RValue) b!" " ++ specToStr i.1) := by
        refine EG.seq (EG.opt fun _ => EG.str _) ?_
        exact (EG.fmt e [.s false (specToStr i.1)] rfl (by simp [argsOf, strArg]) rfl).congr (by simp [textOf, strText])
      have hlen : (specToStr i.1).length ≤ 30 := by cases i.1 <;> decide
      obtain ⟨k, hk⟩ := hg ⟨by
        unfold ifText
        have := spec_clean i.1
        split <;> simp [this], by
        unfold ifText
        split <;> simp <;> omega⟩
      exact ⟨_, hk k (Nat.le_refl _) r⟩
    dsimp only
    split
    · exact fun h => nomatch h
    · refine Res.bind_ne_hang ?_ fun l _ => ?_
      · unfold iterSpecifiers
        refine Res.bind_ne_hang ?_ fun _ _ => ?_
        · unfold Heap.get; split <;> exact fun h => nomatch h
        · split <;> exact fun h => nomatch h
      · unfold Ser.seq
        refine Res.bind_ne_hang ?_ fun _ _ h => nomatch h
        exact each_ne_hang one _ _

end Parse
end Verif
