import Verif.Cli.AdmToMetadata
import Verif.Props.MetadataBuilder

/-!
# C67: from ADM to metadata

A programme of at most two objects becomes a mix for every choice among its objects and their complements; every object of a mix becomes an
element with an id of its own.  Where the code does not do that is shown as well.
-/

namespace Iamf.Props
open Iamf

/-! ### Specification -/

/-- Specification: the objects with these ids. -/
def namedObjects (adm : Adm) (ids : List String) : List AdmObject := ids.flatMap fun i => adm.objects.filter fun o => o.id == i

/-- Specification: the contents with these ids. -/
def namedContents (adm : Adm) (ids : List String) : List AdmContent := ids.flatMap fun i => adm.contents.filter fun c => c.id == i

/-- Specification: the objects of a programme, which lists contents, which list objects. -/
def programmeObjects (adm : Adm) (programme : List String) : List AdmObject :=
  namedObjects adm ((namedContents adm programme).flatMap fun c => c.objects)

/-- Specification: an object can be exchanged for its complements. -/
def alternatives (o : AdmObject) : List String := o.id :: o.complementary

/-- Specification: every way to choose among the alternatives of objects. -/
def choices : List AdmObject → List (List String)
  | [] => [[]]
  | o :: os => (choices os).flatMap fun l => (alternatives o).map fun x => x :: l

/-- Specification: the mixes of all programmes, if each has these choices. -/
def mixesWith (adm : Adm) (made : List AdmObject → List (List String)) : List (List AdmObject × Nat) :=
  adm.programmes.zipIdx.flatMap fun p => (made (programmeObjects adm p.1)).map fun ids => (namedObjects adm ids, p.2)

/-- What is made of a programme of at most two objects: only for the first of two are there choices; a complement of the second one stands
alone. -/
def madeChoices : List AdmObject → List (List String)
  | [] => [[]]
  | [a] => (alternatives a).map fun x => [x]
  | a :: b :: _ => if b.id ∈ a.complementary then (alternatives a).map fun x => [x]
    else (alternatives a).map (fun x => [x, b.id]) ++ b.complementary.map fun x => [x]

/-! ### Groups -/

private theorem lists_nil (n : Nat) : objectLists n [] = ([[]], []) := by cases n <;> rfl

private theorem each_nil (n : Nat) (ids : List String) : eachChoice (objectLists n) ids [] = (ids.map fun x => [x], []) := by
  induction ids with
  | nil => rfl
  | cons x xs ih => simp [eachChoice, lists_nil, ih]

private theorem each_zero (ids : List String) : eachChoice (fun x => ([[]], x)) ids [] = (ids.map fun x => [x], []) := by
  induction ids with
  | nil => rfl
  | cons x xs ih => simp [eachChoice, ih]

private theorem referenced_eq (adm : Adm) (p : List String) : adm.referenced p = programmeObjects adm p := by
  simp [Adm.referenced, programmeObjects, namedContents, namedObjects, List.flatMap_assoc]

/-- The groups of objects, if nothing is left over from another programme. -/
private def groupsOf (os : List AdmObject) : List AdmGroup × List String := os.foldl addAdmObject ([], [])

private theorem made_exact (os : List AdmObject) (h : os.length ≤ 2) :
    (groupsOf os).1.length ≤ 2 ∧ (objectLists (groupsOf os).1.length (groupsOf os).1.reverse).1 = madeChoices os := by
  match os, h with
  | [], _ => exact ⟨by decide, rfl⟩
  | [a], _ =>
    rcases a with ⟨i, p, c⟩
    cases c with
    | nil => exact ⟨by simp [groupsOf, addAdmObject], by simp [groupsOf, addAdmObject, objectLists, madeChoices, alternatives]⟩
    | cons x xs =>
      exact ⟨by simp [groupsOf, addAdmObject],
        by simp [groupsOf, addAdmObject, objectLists, madeChoices, alternatives, each_zero]⟩
  | [a, b], _ =>
    rcases a with ⟨i, p, c⟩
    rcases b with ⟨j, q, d⟩
    cases c with
    | nil =>
      cases d with
      | nil => exact ⟨by simp [groupsOf, addAdmObject], by simp [groupsOf, addAdmObject, objectLists, madeChoices, alternatives]⟩
      | cons y ys =>
        refine ⟨by simp [groupsOf, addAdmObject], ?_⟩
        simp [groupsOf, addAdmObject, objectLists, madeChoices, alternatives, eachChoice]
        simpa [objectLists] using congrArg Prod.fst (each_nil 1 ys)
    | cons x xs =>
      by_cases hj : j ∈ x :: xs
      · have hj' : j = x ∨ j ∈ xs := by simpa using hj
        refine ⟨by simp [groupsOf, addAdmObject, hj'], ?_⟩
        simp [groupsOf, addAdmObject, hj', madeChoices, alternatives, objectLists, eachChoice, each_zero]
      · have hj' : ¬(j = x ∨ j ∈ xs) := by simpa using hj
        cases d with
        | nil =>
          refine ⟨by simp [groupsOf, addAdmObject, hj'], ?_⟩
          simp [groupsOf, addAdmObject, hj', madeChoices, alternatives, objectLists, each_zero]
        | cons y ys =>
          refine ⟨by simp [groupsOf, addAdmObject, hj'], ?_⟩
          simp [groupsOf, addAdmObject, hj', madeChoices, alternatives, objectLists, eachChoice, each_zero]
          rw [show (fun l : List String => l ++ [j]) ∘ (fun x => [x]) = fun x => [x, j] from rfl,
            show (eachChoice (objectLists 1) ys []).1 = ys.map fun x => [x] from congrArg Prod.fst (each_nil 1 ys)]
  | _ :: _ :: _ :: _, h => simp at h

/-! ### Mixes -/

private theorem step (adm : Adm) (es : List String) (ms : List (List AdmObject × Nat)) (p : List String × Nat)
    (h : (programmeObjects adm p.1).length ≤ 2) :
    addProgramme adm ⟨[], [], es, ms⟩ p = ⟨[], [], (madeChoices (programmeObjects adm p.1)).flatten.foldl insertObject es,
      ms ++ (madeChoices (programmeObjects adm p.1)).map fun ids => (namedObjects adm ids, p.2)⟩ := by
  obtain ⟨h1, h2⟩ := made_exact _ h
  unfold groupsOf at h1 h2
  unfold addProgramme
  rw [referenced_eq]
  simp only [Nat.not_lt.mpr h1, if_false, h2]
  rfl

private theorem steps (adm : Adm) (ps : List (List String × Nat)) (es : List String) (ms : List (List AdmObject × Nat))
    (h : ∀ p ∈ ps, (programmeObjects adm p.1).length ≤ 2) :
    ps.foldl (addProgramme adm) ⟨[], [], es, ms⟩ =
      ⟨[], [], (ps.flatMap fun p => (madeChoices (programmeObjects adm p.1)).flatten).foldl insertObject es,
        ms ++ ps.flatMap fun p => (madeChoices (programmeObjects adm p.1)).map fun ids => (namedObjects adm ids, p.2)⟩ := by
  induction ps generalizing es ms with
  | nil => simp
  | cons p ps ih =>
    rw [List.foldl_cons, step adm es ms p (h p (by simp)), ih _ _ (fun q hq => h q (List.mem_cons_of_mem _ hq))]
    simp [List.foldl_append]

private theorem mem_zipIdx_fst {α : Type} {l : List α} {n : Nat} {p : α × Nat} (h : p ∈ l.zipIdx n) : p.1 ∈ l := by
  have := List.mem_map_of_mem (f := Prod.fst) h
  simpa using this

/-- C67: what is made of programmes with at most two objects each: the mixes of the choices that `madeChoices` lists, in the order of the
programmes, and for all ids of these choices an element, numbered in the order in which they first come. -/
theorem C67_mixes_exactly (adm : Adm) (h : ∀ p ∈ adm.programmes, (programmeObjects adm p).length ≤ 2) :
    adm.objectsMap.mixes = mixesWith adm madeChoices ∧
      adm.objectsMap.elements = (adm.programmes.flatMap fun p => (madeChoices (programmeObjects adm p)).flatten).foldl insertObject [] := by
  unfold Adm.objectsMap
  rw [steps adm _ [] [] (fun p hp => h p.1 (mem_zipIdx_fst hp))]
  refine ⟨by simp [mixesWith], ?_⟩
  have e : ∀ (l : List (List String)) (n : Nat), ((l.zipIdx n).flatMap fun p => (madeChoices (programmeObjects adm p.1)).flatten) =
      l.flatMap fun p => (madeChoices (programmeObjects adm p)).flatten := by
    intro l
    induction l with
    | nil => intro n; rfl
    | cons x xs ih => intro n; simp [List.zipIdx_cons, ih]
  show List.foldl insertObject [] _ = _
  rw [e]

private theorem made_all (os : List AdmObject) (h : os.length ≤ 2)
    (hc : ∀ a b, os = [a, b] → b.complementary = [] ∧ b.id ∉ a.complementary) : madeChoices os = choices os := by
  match os, h with
  | [], _ => rfl
  | [a], _ => simp [madeChoices, choices]
  | [a, b], _ =>
    obtain ⟨h1, h2⟩ := hc a b rfl
    simp [madeChoices, choices, alternatives, h1, h2]
  | _ :: _ :: _ :: _, h => simp at h

/-- C67: if only first objects of programmes have complements, there is one mix for every choice. -/
theorem C67_mixes (adm : Adm) (h : ∀ p ∈ adm.programmes, (programmeObjects adm p).length ≤ 2)
    (hc : ∀ p ∈ adm.programmes, ∀ a b, programmeObjects adm p = [a, b] → b.complementary = [] ∧ b.id ∉ a.complementary) :
    adm.objectsMap.mixes = mixesWith adm choices := by
  rw [(C67_mixes_exactly adm h).1]
  unfold mixesWith
  have : ∀ l : List (List String × Nat), (∀ p ∈ l, p.1 ∈ adm.programmes) →
      (l.flatMap fun p => (madeChoices (programmeObjects adm p.1)).map fun ids => (namedObjects adm ids, p.2)) =
      l.flatMap fun p => (choices (programmeObjects adm p.1)).map fun ids => (namedObjects adm ids, p.2) := by
    intro l hl
    induction l with
    | nil => rfl
    | cons p ps ih =>
      rw [List.flatMap_cons, List.flatMap_cons, ih (fun q hq => hl q (List.mem_cons_of_mem _ hq)),
        made_all _ (h _ (hl p (by simp))) (hc _ (hl p (by simp)))]
  exact this _ (fun p hp => mem_zipIdx_fst hp)

/-- C67 (finding): of two objects of which the second has complements, a choice of a complement of the second is never made together with
the first, although it should be. -/
theorem C67_choices_lose_objects (a b : AdmObject) (hb : b.id ∉ a.complementary) (c : String) (hc : c ∈ b.complementary) (hn : c ≠ b.id) :
    [a.id, c] ∈ choices [a, b] ∧ [a.id, c] ∉ madeChoices [a, b] ∧ [c] ∈ madeChoices [a, b] ∧ [c] ∉ choices [a, b] := by
  refine ⟨?_, ?_, ?_, ?_⟩
  · exact List.mem_flatMap.mpr ⟨[c], by simp [choices, alternatives, hc], by simp [alternatives]⟩
  · simp [madeChoices, hb, alternatives, hn, Ne.symm hn]
  · simp [madeChoices, hb, hc]
  · simp [choices]

/-! ### Programmes that are left out -/

private theorem ignored_nothing (os : List AdmObject) (h : ∀ o ∈ os, o.complementary = []) (gs : List AdmGroup) :
    ∃ gs', os.foldl addAdmObject (gs, []) = (gs', []) ∧ gs'.length = gs.length + os.length := by
  induction os generalizing gs with
  | nil => exact ⟨gs, rfl, by simp⟩
  | cons o os ih =>
    obtain ⟨gs', h1, h2⟩ := ih (fun o ho => h o (List.mem_cons_of_mem _ ho)) (gs ++ [⟨false, [o.id]⟩])
    refine ⟨gs', ?_, by simp at h2; simp; omega⟩
    rw [List.foldl_cons, ← h1]
    simp [addAdmObject, h o (by simp)]

private theorem objects_of (adm : Adm) (p : List String) (o : AdmObject) (h : o ∈ programmeObjects adm p) : o ∈ adm.objects := by
  simp only [programmeObjects, namedObjects, List.mem_flatMap, List.mem_filter] at h
  obtain ⟨_, _, h, _⟩ := h
  exact h

private theorem stuck (adm : Adm) (hc : ∀ o ∈ adm.objects, o.complementary = []) (ps : List (List String × Nat)) (gs : List AdmGroup)
    (hg : 2 < gs.length) (es : List String) (ms : List (List AdmObject × Nat)) :
    ∃ gs', ps.foldl (addProgramme adm) ⟨gs, [], es, ms⟩ = ⟨gs', [], es, ms⟩ := by
  induction ps generalizing gs with
  | nil => exact ⟨gs, rfl⟩
  | cons p ps ih =>
    obtain ⟨gs', h1, h2⟩ := ignored_nothing (programmeObjects adm p.1) (fun o ho => hc o (objects_of adm _ o ho)) gs
    rw [List.foldl_cons]
    have : addProgramme adm ⟨gs, [], es, ms⟩ p = ⟨gs', [], es, ms⟩ := by
      unfold addProgramme
      rw [referenced_eq]
      simp only [h1]
      rw [if_pos (by omega)]
    rw [this]
    exact ih gs' (by omega)

/-- C67 (finding): a programme with more than two objects is left out, and with it all programmes that follow. -/
theorem C67_later_programmes_are_lost (contents : List AdmContent) (objects : List AdmObject) (before after : List (List String))
    (p : List String) (hc : ∀ o ∈ objects, o.complementary = [])
    (hb : ∀ q ∈ before, (programmeObjects ⟨before ++ p :: after, contents, objects⟩ q).length ≤ 2)
    (hp : 2 < (programmeObjects ⟨before ++ p :: after, contents, objects⟩ p).length) :
    (Adm.objectsMap ⟨before ++ p :: after, contents, objects⟩).mixes = (Adm.objectsMap ⟨before, contents, objects⟩).mixes ∧
      (Adm.objectsMap ⟨before ++ p :: after, contents, objects⟩).elements = (Adm.objectsMap ⟨before, contents, objects⟩).elements := by
  have same : ∀ s q, addProgramme ⟨before ++ p :: after, contents, objects⟩ s q = addProgramme ⟨before, contents, objects⟩ s q :=
    fun _ _ => rfl
  have fold : ∀ l : List (List String × Nat), ∀ s, l.foldl (addProgramme ⟨before ++ p :: after, contents, objects⟩) s =
      l.foldl (addProgramme ⟨before, contents, objects⟩) s := fun l s => rfl
  simp only [Adm.objectsMap]
  rw [List.zipIdx_append, List.foldl_append, fold before.zipIdx, steps ⟨before, contents, objects⟩ before.zipIdx [] []
    (fun q hq => hb q.1 (mem_zipIdx_fst hq)), List.zipIdx_cons, List.foldl_cons]
  obtain ⟨gs', h1, h2⟩ := ignored_nothing (programmeObjects ⟨before ++ p :: after, contents, objects⟩ p)
    (fun o ho => hc o (objects_of _ _ o ho)) []
  have : ∀ es ms i, addProgramme ⟨before ++ p :: after, contents, objects⟩ ⟨[], [], es, ms⟩ (p, i) = ⟨gs', [], es, ms⟩ := by
    intro es ms i
    unfold addProgramme
    rw [referenced_eq]
    simp only [h1]
    rw [if_pos (by simp at h2; omega)]
  rw [this]
  obtain ⟨gs'', h3⟩ := stuck ⟨before ++ p :: after, contents, objects⟩ hc (after.zipIdx (0 + before.length + 1)) gs' (by simp at h2; omega)
    (List.foldl insertObject [] (before.zipIdx.flatMap fun p => (madeChoices (programmeObjects ⟨before, contents, objects⟩ p.1)).flatten))
    ([] ++ before.zipIdx.flatMap fun p =>
      (madeChoices (programmeObjects ⟨before, contents, objects⟩ p.1)).map fun ids => (namedObjects ⟨before, contents, objects⟩ ids, p.2))
  rw [h3]
  exact ⟨rfl, rfl⟩

/-! ### Elements -/

private theorem insert_nodup (es : List String) (i : String) (h : es.Nodup) : (insertObject es i).Nodup := by
  unfold insertObject
  split
  · exact h
  · rename_i hn
    rw [List.nodup_append]
    exact ⟨h, by simp, fun a ha b hb => by simp at hb; subst hb; exact fun e => hn (by simpa [e] using ha)⟩

private theorem insert_mem (es : List String) (i x : String) : x ∈ insertObject es i ↔ x ∈ es ∨ x = i := by
  unfold insertObject
  split
  · rename_i h
    constructor
    · exact Or.inl
    · rintro (h' | rfl)
      · exact h'
      · simpa using h
  · simp

private theorem inserts (is es : List String) : (es.Nodup → (is.foldl insertObject es).Nodup) ∧ ∀ x, x ∈ is.foldl insertObject es ↔ x ∈ es ∨ x ∈ is := by
  induction is generalizing es with
  | nil => simp
  | cons i is ih =>
    obtain ⟨h1, h2⟩ := ih (insertObject es i)
    refine ⟨fun h => h1 (insert_nodup es i h), fun x => ?_⟩
    rw [List.foldl_cons, h2, insert_mem]
    simp [or_assoc]

/-- Invariant of all programmes. -/
private def Covered (adm : Adm) (n : Nat) (s : AdmState) : Prop :=
  s.elements.Nodup ∧ ∀ m ∈ s.mixes, m.2 < n ∧ ∀ o ∈ m.1, o ∈ adm.objects ∧ o.id ∈ s.elements

private theorem covered_step (adm : Adm) (n : Nat) (s : AdmState) (p : List String × Nat) (hp : p.2 < n) (h : Covered adm n s) :
    Covered adm n (addProgramme adm s p) := by
  obtain ⟨h1, h2⟩ := h
  simp only [addProgramme]
  split
  · exact ⟨h1, h2⟩
  · obtain ⟨k1, k2⟩ := inserts (objectLists ((adm.referenced p.1).foldl addAdmObject (s.groups, s.ignored)).1.length
      ((adm.referenced p.1).foldl addAdmObject (s.groups, s.ignored)).1.reverse).1.flatten s.elements
    refine ⟨k1 h1, fun m hm => ?_⟩
    rcases List.mem_append.mp hm with hm | hm
    · refine ⟨(h2 m hm).1, fun o ho => ⟨((h2 m hm).2 o ho).1, (k2 _).mpr (.inl ((h2 m hm).2 o ho).2)⟩⟩
    · obtain ⟨ids, hi, rfl⟩ := List.mem_map.mp hm
      refine ⟨hp, fun o ho => ?_⟩
      obtain ⟨i, hi', ho⟩ := List.mem_flatMap.mp ho
      obtain ⟨ho, he⟩ := List.mem_filter.mp ho
      have he : o.id = i := by simpa using he
      exact ⟨ho, (k2 _).mpr (.inr (List.mem_flatten.mpr ⟨ids, hi, he ▸ hi'⟩))⟩

/-- C67: whatever the input, no object becomes two elements, and mixes are about objects of the input that become elements and come from a
programme of the input. -/
theorem C67_elements (adm : Adm) : adm.objectsMap.elements.Nodup ∧
    ∀ m ∈ adm.objectsMap.mixes, m.2 < adm.programmes.length ∧ ∀ o ∈ m.1, o ∈ adm.objects ∧ o.id ∈ adm.objectsMap.elements := by
  have : ∀ (ps : List (List String × Nat)) (s : AdmState), (∀ p ∈ ps, p.2 < adm.programmes.length) → Covered adm adm.programmes.length s →
      Covered adm adm.programmes.length (ps.foldl (addProgramme adm) s) := by
    intro ps
    induction ps with
    | nil => exact fun s _ h => h
    | cons p ps ih => exact fun s hp h => ih _ (fun q hq => hp q (List.mem_cons_of_mem _ hq)) (covered_step adm _ s p (hp p (by simp)) h)
  exact this _ _ (fun p hp => by have := List.snd_lt_of_mem_zipIdx hp; simpa using this) ⟨List.nodup_nil, fun m hm => (by cases hm)⟩

/-! ### Layouts -/

private theorem sorted_zip (es : List String) (n : Nat) (h : es.Pairwise (· < ·)) : (es.zipIdx n).foldr insertKey [] = es.zipIdx n := by
  induction es generalizing n with
  | nil => rfl
  | cons x xs ih =>
    obtain ⟨h1, h2⟩ := List.pairwise_cons.mp h
    rw [List.zipIdx_cons, List.foldr_cons, ih _ h2]
    cases xs with
    | nil => rfl
    | cons y ys => simp [List.zipIdx_cons, insertKey, h1 y (by simp)]

private theorem mapM_some {α β : Type} (f : α → Option β) (g : α → β) (l : List α) (h : ∀ x ∈ l, f x = some (g x)) :
    l.mapM f = some (l.map g) := by
  induction l with
  | nil => rfl
  | cons x xs ih => simp [List.mapM_cons, h x (by simp), ih (fun y hy => h y (List.mem_cons_of_mem _ hy))]

private theorem castAll_forall {α β : Type} (f : α → Except Err β) (l : List α) (r : List β) (h : castAll f l = .ok r) :
    List.Forall₂ (fun x y => f x = .ok y) l r := by
  induction l generalizing r with
  | nil => cases h; exact .nil
  | cons x xs ih =>
    simp only [castAll, bind, Except.bind] at h
    cases hx : f x with
    | error e => rw [hx] at h; cases h
    | ok y =>
      cases hxs : castAll f xs with
      | error e => rw [hx, hxs] at h; cases h
      | ok ys =>
        rw [hx, hxs] at h
        cases h
        exact .cons hx (ih ys hxs)

/-- C67: if objects come in the order of their ids and elements are numbered in that order, then there is an element for each object, with the
layout of the object's pack, and the frames for it have the same layout. -/
theorem C67_layouts (adm : Adm) (ls : List InputLayout) (hl : adm.layouts = .ok ls) (hp : adm.programmes ≠ [])
    (hs : (adm.objects.map (·.id)).Pairwise (· < ·)) (he : adm.objectsMap.elements = adm.objects.map (·.id)) :
    List.Forall₂ (fun o l => inputLayoutFromPackFormat o.pack = .ok l) adm.objects ls ∧
      adm.elementRequests ls = some (ls.zipIdx.map fun l => ⟨UInt32.ofNat l.2, 0, l.1⟩) ∧
      adm.frameRequests ls = some (ls.zipIdx.map fun l => (UInt32.ofNat l.2, l.1)) := by
  have h1 := castAll_forall _ _ _ hl
  have hn : adm.programmes.isEmpty = false := by cases h : adm.programmes with
    | nil => exact absurd h hp
    | cons _ _ => rfl
  have hlen : (adm.objects.map (·.id)).length = ls.length := by rw [List.length_map]; exact h1.length_eq
  have hz : sortedElements adm.objectsMap.elements = (adm.objects.map (·.id)).zipIdx := by rw [he]; exact sorted_zip _ 0 hs
  refine ⟨h1, ?_, ?_⟩
  · rw [Adm.elementRequests, hn, hz]
    simp only [Bool.false_eq_true, if_false]
    rw [mapM_some _ (fun e => ⟨UInt32.ofNat e.2, 0, ls[e.2]?.getD .mono⟩)]
    · refine congrArg some (List.ext_getElem (by simpa using hlen) fun i h2 h3 => ?_)
      have hi : i < ls.length := by simpa using h3
      simp [hi]
    · intro e hm
      have : e.2 < ls.length := by have := List.snd_lt_of_mem_zipIdx hm; simp only [hlen] at this; omega
      simp [this]
  · rw [Adm.frameRequests, hn, hz]
    simp only [Bool.false_eq_true, if_false]
    rw [mapM_some _ (fun e => (UInt32.ofNat e.1.2, ls[e.2]?.getD .mono))]
    · refine congrArg some (List.ext_getElem (by simpa using hlen) fun i h2 h3 => ?_)
      have hi : i < ls.length := by simpa using h3
      simp [hi]
    · intro e hm
      have : e.2 < ls.length := by have := List.snd_lt_of_mem_zipIdx hm; simp at this hlen; omega
      simp [this]

/-- C67: without programmes there is one element, with id 0, for the first object, and no mixes come from programmes. -/
theorem C67_without_programmes (adm : Adm) (h : adm.programmes = []) (l : InputLayout) (ls : List InputLayout) :
    adm.elementRequests (l :: ls) = some [⟨0, 0, l⟩] ∧ adm.frameRequests (l :: ls) = some [(0, l)] ∧ adm.objectsMap.mixes = [] ∧
      adm.objectsMap.elements = [] := by
  simp [Adm.elementRequests, Adm.frameRequests, Adm.objectsMap, h]

/-- C67: layouts are found exactly if each object has a known pack format. -/
theorem C67_layouts_found (adm : Adm) (ls : List InputLayout) :
    adm.layouts = .ok ls ↔ List.Forall₂ (fun o l => inputLayoutFromPackFormat o.pack = .ok l) adm.objects ls := by
  refine ⟨castAll_forall _ _ _, fun h => ?_⟩
  unfold Adm.layouts
  generalize adm.objects = os at h ⊢
  induction h with
  | nil => rfl
  | cons h1 _ ih => simp only [castAll, h1, ih, bind, Except.bind]

/-- Two objects that a programme names in the other order. -/
private def swapped : Adm := ⟨[["c"]], [⟨"c", ["b", "a"]⟩], [⟨"a", "AP_00010001", []⟩, ⟨"b", "AP_00010002", []⟩]⟩

/-- C67 (finding): otherwise elements get the layouts of other objects, and frames layouts other than their elements: of a mono object `a` and a
stereo object `b`, `b` (element 0) becomes a mono element with stereo frames and `a` (element 1) a stereo element with mono frames. -/
theorem C67_layouts_are_exchanged : swapped.layouts = .ok [.mono, .stereo] ∧ swapped.objectsMap.elements = ["b", "a"] ∧
    swapped.elementRequests [.mono, .stereo] = some [⟨1, 0, .stereo⟩, ⟨0, 0, .mono⟩] ∧
    swapped.frameRequests [.mono, .stereo] = some [(1, .mono), (0, .stereo)] := by decide +kernel

/-- An object that can be exchanged for another one, and a second one. -/
private def exchangeable : Adm :=
  ⟨[["c"], ["d"]], [⟨"c", ["1", "3"]⟩, ⟨"d", ["2"]⟩],
    [⟨"1", "AP_00010001", ["2"]⟩, ⟨"2", "AP_00010002", []⟩, ⟨"3", "AP_00010003", []⟩]⟩

/-- The hypotheses of `C67_mixes` and what it says of an example: two mixes for the first programme, one for the second. -/
theorem C67_example : (∀ p ∈ exchangeable.programmes, (programmeObjects exchangeable p).length ≤ 2) ∧
    programmeObjects exchangeable ["c"] = [⟨"1", "AP_00010001", ["2"]⟩, ⟨"3", "AP_00010003", []⟩] ∧
    exchangeable.objectsMap.mixes.map (fun m => (m.1.map (·.id), m.2)) = [(["1", "3"], 0), (["2", "3"], 0), (["2"], 1)] ∧
    exchangeable.objectsMap.elements = ["1", "3", "2"] := by decide +kernel

/-- The hypotheses of `C67_layouts` are met by an example. -/
theorem C67_layouts_example : (Adm.mk [["c"]] [⟨"c", ["a", "b"]⟩] swapped.objects).objectsMap.elements = swapped.objects.map (·.id) ∧
    (swapped.objects.map (·.id)).Pairwise (· < ·) ∧ (Adm.mk [["c"]] [⟨"c", ["a", "b"]⟩] swapped.objects).layouts = .ok [.mono, .stereo] := by
  decide +kernel

/-! ### Frame sizes -/

/-- C67: frames are as long as they can be without being longer than was asked for, unless the product of milliseconds and samples per second
needs more than 32 bits. -/
theorem C67_frame_size (milliseconds rate n : UInt32) (h : milliseconds.toNat * rate.toNat < 4294967296) :
    samplesPerFrameFor milliseconds rate = .ok n ↔ 0 < milliseconds.toNat ∧ 0 < rate.toNat ∧
      n.toNat * 1000 ≤ milliseconds.toNat * rate.toNat ∧ milliseconds.toNat * rate.toNat < (n.toNat + 1) * 1000 := by
  have hz : ∀ x : UInt32, x = 0 ↔ x.toNat = 0 := fun x => ⟨fun h => by simp [h], fun h => UInt32.toNat_inj.mp (by simpa using h)⟩
  have hq : (milliseconds * rate / 1000).toNat = milliseconds.toNat * rate.toNat / 1000 := by
    rw [UInt32.toNat_div, UInt32.toNat_mul, Nat.mod_eq_of_lt (by simpa using h)]
    rfl
  unfold samplesPerFrameFor
  simp only [hz]
  split
  · constructor
    · intro h; cases h
    · rintro ⟨h1, h2, -⟩; omega
  · rw [Except.ok.injEq, ← UInt32.toNat_inj, hq]
    omega

/-- C67 (finding): at 48 kHz, 100 seconds are less than 11 in frames: the product is cut to 32 bits. -/
theorem C67_frame_size_wraps : samplesPerFrameFor 100000 48000 = .ok 505032 := by decide +kernel

end Iamf.Props
