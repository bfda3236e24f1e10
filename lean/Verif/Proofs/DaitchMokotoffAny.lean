import Verif.Proofs.DaitchMokotoffEncode
/-!
# Daitch-Mokotoff codes for any alternatives
-/

namespace Verif
namespace DMKProofs
open Parser Spec DaitchMokotoff ParserProofs

set_option linter.unusedSimpArgs false

/-- A result or a panic. -/
def orPanic {α : Type} : Option α → Res α
  | some a => .ok a
  | none => .error .slice

theorem take_byteLen_unique {s : Str} {n m : Nat} (hn : n ≤ s.length) (hm : m ≤ s.length)
    (h : byteLen (s.take n) = byteLen (s.take m)) : n = m := by
  have key : ∀ (s : Str) (n m : Nat), n ≤ m → m ≤ s.length → byteLen (s.take n) = byteLen (s.take m) → n = m := by
    intro s n m hnm hm h
    have e : s.take m = s.take n ++ (s.take m).drop n := by
      have := (List.take_append_drop n (s.take m)).symm
      rwa [List.take_take, Nat.min_eq_left hnm] at this
    rw [e, byteLen_append] at h
    have h0 : byteLen ((s.take m).drop n) = 0 := by omega
    have := length_le_byteLen ((s.take m).drop n)
    rw [List.length_drop, List.length_take] at this
    omega
  rcases Nat.le_total n m with h1 | h1
  · exact key s n m h1 hm h
  · exact (key s m n h1 hn h.symm).symm

theorem cut6_eq (s : Str) :
    (if byteLen s > 6 then sliceTo s 6 else .ok s) = orPanic (cut6 s) := by
  unfold cut6
  by_cases h : byteLen s ≤ 6
  · rw [if_pos h, if_neg (by omega)]; rfl
  · rw [if_neg h, if_pos (by omega)]
    unfold sliceTo
    cases hs : splitAtByte 6 s with
    | none =>
      have : (List.range s.length).findSome?
          (fun n => if byteLen (s.take n) = 6 then some (s.take n) else none) = none := by
        rw [List.findSome?_eq_none_iff]
        intro n hn
        apply if_neg
        intro hb
        have := (splitAtByte_eq_some_iff (n := 6) (s := s) (a := s.take n) (b := s.drop n)).mpr
          ⟨(List.take_append_drop n s).symm, hb⟩
        rw [hs] at this
        cases this
      rw [this]; rfl
    | some ab =>
      obtain ⟨a, b⟩ := ab
      obtain ⟨e, hb⟩ := splitAtByte_eq_some_iff.mp hs
      have hlen : a.length < s.length := by
        rcases Nat.lt_or_ge a.length s.length with hl | hl
        · exact hl
        · have : b = [] := by
            have : s.length = a.length + b.length := by rw [e, List.length_append]
            exact List.eq_nil_of_length_eq_zero (by omega)
          rw [e, this, List.append_nil, hb] at h
          omega
      have ha : s.take a.length = a := by rw [e]; simp
      have : (List.range s.length).findSome?
          (fun n => if byteLen (s.take n) = 6 then some (s.take n) else none) = some a := by
        cases hf : (List.range s.length).findSome?
          (fun n => if byteLen (s.take n) = 6 then some (s.take n) else none) with
        | none =>
          rw [List.findSome?_eq_none_iff] at hf
          have := hf a.length (List.mem_range.mpr hlen)
          rw [ha, if_pos hb] at this
          cases this
        | some x =>
          obtain ⟨n, hn, hx⟩ := List.exists_of_findSome?_eq_some hf
          have hn' := List.mem_range.mp hn
          by_cases hbn : byteLen (s.take n) = 6
          · rw [if_pos hbn] at hx
            have : n = a.length := take_byteLen_unique (s := s) (by omega) (by omega) (by rw [hbn, ha, hb])
            rw [this, ha] at hx
            exact hx.symm
          · rw [if_neg hbn] at hx; cases hx
      rw [this]; rfl

theorem cut6_short {s c : Str} (h : cut6 s = some c) : byteLen c ≤ 6 := by
  have hp := push_short s []
  unfold Branch.push Branch.maxLength at hp
  simp only [List.append_nil] at hp
  rw [cut6_eq, h] at hp
  exact hp _ rfl

theorem cut6_full {s t : Str} (h : byteLen s = 6) : cut6 (s ++ t) = some s := by
  have e := cut6_eq (s ++ t)
  have : (if byteLen (s ++ t) > 6 then sliceTo (s ++ t) 6 else .ok (s ++ t) : Res Str) = .ok s := by
    by_cases ht : byteLen (s ++ t) > 6
    · rw [if_pos ht]
      unfold sliceTo
      rw [(splitAtByte_eq_some_iff (n := 6) (s := s ++ t) (a := s) (b := t)).mpr ⟨rfl, h⟩]
    · rw [if_neg ht]
      rw [byteLen_append] at ht
      have := length_le_byteLen t
      rw [List.eq_nil_of_length_eq_zero (l := t) (by omega), List.append_nil]
  rw [this] at e
  cases hc : cut6 (s ++ t) with
  | none => rw [hc] at e; cases e
  | some c => rw [hc] at e; cases e; rfl

theorem process_any {p : Partial} (hp : byteLen p.code ≤ 6) (a : Str) (force : Bool) :
    (ofP p).processNextReplacement a force = orPanic ((p.addAny force a).map ofP) := by
  obtain ⟨code, last⟩ := p
  simp only at hp
  have key : ∀ rep : Bool,
      (if ((!rep || force) && decide (byteLen code < Branch.maxLength)) = true then do
        let builder ← Branch.push code a
        return { builder, lastReplacement := some a }
      else (.ok ⟨code, some a⟩ : Res Branch)) =
      orPanic ((if rep && !force then some (⟨code, some a⟩ : Partial)
        else (cut6 (code ++ a)).map fun c => ⟨c, some a⟩).map ofP) := by
    intro rep
    unfold Branch.maxLength
    by_cases hr : (rep && !force) = true
    · have : (!rep || force) = false := by revert hr; cases rep <;> cases force <;> simp
      rw [this, if_pos hr]
      rfl
    · have : (!rep || force) = true := by revert hr; cases rep <;> cases force <;> simp
      rw [this, if_neg hr]
      by_cases hl : byteLen code < 6
      · rw [if_pos (by simpa using hl)]
        have hpush : Branch.push code a = orPanic (cut6 (code ++ a)) := cut6_eq (code ++ a)
        rw [hpush]
        cases cut6 (code ++ a) with
        | none => rfl
        | some c => rfl
      · rw [if_neg (by simpa using hl), cut6_full (by omega)]
        rfl
  cases last with
  | none => exact key false
  | some l => exact key (a.isSuffixOf l)

theorem addAny_short {p q : Partial} {a : Str} {force : Bool} (hp : byteLen p.code ≤ 6)
    (h : p.addAny force a = some q) : byteLen q.code ≤ 6 := by
  unfold Partial.addAny at h
  have key : ∀ rep : Bool, (if rep && !force then some (⟨p.code, some a⟩ : Partial)
      else (cut6 (p.code ++ a)).map fun code => ⟨code, some a⟩) = some q → byteLen q.code ≤ 6 := by
    intro rep h
    by_cases hr : (rep && !force) = true
    · rw [if_pos hr] at h; cases h; exact hp
    · rw [if_neg hr] at h
      obtain ⟨c, hc, rfl⟩ := Option.map_eq_some_iff.mp h
      exact cut6_short hc
  exact key _ h

/-- The alternatives that are used. -/
def used (branching : Bool) (rs : List Str) : List Str := if branching then rs else rs.take 1

/-- Adding the results one by one, up to the first panic. -/
def addAll (acc : List Partial) : List (Option Partial) → Option (List Partial)
  | [] => some acc
  | none :: _ => none
  | some p :: l => addAll (addNew acc p) l

theorem addAll_append (acc : List Partial) (l m : List (Option Partial)) :
    addAll acc (l ++ m) = (addAll acc l).bind fun acc => addAll acc m := by
  induction l generalizing acc with
  | nil => rfl
  | cons x l ih =>
    cases x with
    | none => rfl
    | some p => exact ih _

theorem addAll_eq (acc : List Partial) (l : List (Option Partial)) :
    addAll acc l = (l.mapM id).map fun r => r.foldl addNew acc := by
  induction l generalizing acc with
  | nil => rfl
  | cons x l ih =>
    cases x with
    | none => rfl
    | some p =>
      unfold addAll
      rw [ih, List.mapM_cons]
      simp only [id]
      cases l.mapM id with
      | none => rfl
      | some r => rfl

theorem extendBranch_any {p : Partial} (hp : byteLen p.code ≤ 6) (branching : Bool) (rs : List Str)
    (force : Bool) (acc : List Partial) :
    extendBranch branching force (ofP p) rs (acc.map ofP) =
      orPanic ((addAll acc ((used branching rs).map (p.addAny force))).map fun l => l.map ofP) := by
  induction rs generalizing acc with
  | nil => unfold extendBranch used; cases branching <;> rfl
  | cons r rs ih =>
    unfold extendBranch
    rw [process_any hp r force]
    cases h : p.addAny force r with
    | none => unfold used; cases branching <;> simp [h, addAll] <;> rfl
    | some q =>
      show (if branching then extendBranch branching force (ofP p) rs
        (if (acc.map ofP).contains (ofP q) then acc.map ofP else acc.map ofP ++ [ofP q]) else
          pure (if (acc.map ofP).contains (ofP q) then acc.map ofP else acc.map ofP ++ [ofP q])) = _
      rw [map_addNew, ih]
      cases branching with
      | true => simp [used, h, addAll]
      | false => simp [used, h, addAll]; rfl

theorem extendBranches_any (branching force : Bool) (rs : List Str)
    (ps acc : List Partial) (hps : ∀ p ∈ ps, byteLen p.code ≤ 6) :
    extendBranches branching force rs (ps.map ofP) (acc.map ofP) =
      orPanic ((addAll acc (ps.flatMap fun p => (used branching rs).map (p.addAny force))).map
        fun l => l.map ofP) := by
  induction ps generalizing acc with
  | nil => rfl
  | cons p ps ih =>
    rw [List.map_cons]
    unfold extendBranches
    rw [extendBranch_any (hps p (by simp)) branching rs force acc, List.flatMap_cons, addAll_append]
    cases addAll acc ((used branching rs).map (p.addAny force)) with
    | none => rfl
    | some acc' => exact ih acc' (fun q hq => hps q (by simp [hq]))

/-- The groups with the alternatives that are used. -/
def usedGroups (branching : Bool) (gs : List (List Str × Bool)) : List (List Str × Bool) :=
  gs.map fun g => (used branching g.1, g.2)

theorem loop_any {items : List DMItem} (hp : ∀ i ∈ items, ∀ r, itemRule i = some r → r.pattern ≠ [])
    (f branching : Bool) (rest : Str) (skip : Nat) (prev : Option Char)
    (ps : List Partial) (hps : ∀ p ∈ ps, byteLen p.code ≤ 6) :
    loop (encoderOf f items) branching rest skip (prev.getD '\x00') (ps.map ofP) =
      orPanic ((dmPathsAny (usedGroups branching (dmGroups (dmRules items) prev skip rest)) ps).map
        fun l => l.map ofP) := by
  induction rest generalizing skip prev ps with
  | nil => unfold loop dmGroups; rfl
  | cons ch rest ih =>
    cases skip with
    | succ skip => unfold loop dmGroups; exact ih skip prev ps hps
    | zero =>
      unfold loop dmGroups
      rw [encoder_rules]
      unfold someNonempty
      by_cases h0 : rulesFor ch items = []
      · rw [if_pos h0, if_pos ((rulesFor_nil_iff items ch).mpr h0)]
        exact ih 0 prev ps hps
      · rw [if_neg h0, if_neg (fun h => h0 ((rulesFor_nil_iff items ch).mp h))]
        simp only [Option.map_some]
        rw [find_sort, bestRule_eq hp]
        cases hb : best (fun r => r.matches (ch :: rest)) (rulesFor ch items) with
        | none => exact ih 0 (some ch) ps hps
        | some rule =>
          simp only [Option.map_some]
          rw [← mn_eq, ← alternativesAt_eq]
          have he := extendBranches_any branching (mn prev ch) (alternativesAt (toSpec rule) prev (ch :: rest)) ps [] hps
          rw [List.map_nil] at he
          rw [he]
          unfold usedGroups
          rw [List.map_cons]
          unfold dmPathsAny
          simp only
          rw [addAll_eq]
          cases hm : (ps.flatMap fun p =>
              (used branching (alternativesAt (toSpec rule) prev (ch :: rest))).map (p.addAny (mn prev ch))).mapM id with
          | none => rfl
          | some next =>
            simp only [Option.map_some]
            rw [foldl_addNew_nil]
            refine ih (byteLen rule.pattern - 1) (some ch) next.eraseDups ?_
            intro q hq
            have hq := mem_eraseDups hq
            have hmem : ∀ (l : List (Option Partial)) (r : List Partial), l.mapM id = some r →
                ∀ x ∈ r, some x ∈ l := by
              intro l
              induction l with
              | nil => intro r h x hx; cases h; cases hx
              | cons y l ihl =>
                intro r h x hx
                rw [List.mapM_cons] at h
                cases y with
                | none => cases h
                | some y =>
                  cases hl : l.mapM id with
                  | none => rw [hl] at h; cases h
                  | some r' =>
                    rw [hl] at h
                    cases h
                    rcases List.mem_cons.mp hx with rfl | hx
                    · simp
                    · exact List.mem_cons_of_mem _ (ihl r' hl x hx)
            have := hmem _ _ hm q hq
            obtain ⟨p, hpm, h⟩ := List.mem_flatMap.mp this
            obtain ⟨a, -, h⟩ := List.mem_map.mp h
            exact addAny_short (hps p hpm) h

theorem innerSoundex_any {items : List DMItem}
    (hp : ∀ i ∈ items, ∀ r, itemRule i = some r → r.pattern ≠ [])
    (U : Unicode) (f branching : Bool) (v : Str) :
    innerSoundex U (encoderOf f items) v branching =
      orPanic (dmCodesAny (usedGroups branching
        (dmGroups (dmRules items) none 0 (dmNormalise U f (dmFold items) v)))) := by
  unfold innerSoundex dmCodesAny
  rw [clean_spec]
  have h1 := loop_any hp f branching (dmNormalise U f (dmFold items) v) 0 none [⟨[], none⟩] (by simp [byteLen])
  rw [show loop (encoderOf f items) branching (dmNormalise U f (dmFold items) v) 0 '\x00' [Branch.default] = _ from h1]
  cases dmPathsAny (usedGroups branching (dmGroups (dmRules items) none 0 (dmNormalise U f (dmFold items) v)))
    [⟨[], none⟩] with
  | none => rfl
  | some ps =>
    show Except.ok _ = Except.ok _
    rw [List.map_map]
    rfl

end DMKProofs
end Verif
