import Verif.Lemmas.C84Tables

/-!
# Lemmas for C84: all sealed fragments
-/
namespace Mcut.Stitch
open Mcut.Hmesh Mcut.Extract Mcut.Patches
open Mcut.Split (FragOptions)
variable {P : Type} {d : P}

theorem sealedAll_eq {junk : Nat} {S : Soup P} {sm : Mesh P} {E : Env P} {starts all : List (Nat × Nat)} {m1 : Mesh P} {polys1 : List (List Nat)} {below above : List Nat} {w : FragOptions} (wish : Wishes)
    {threads : Option Nat} (meaning : Bool → Place) {colours : List (Bool × List Nat)} {lists : List (List (Mesh P × Info))} (hall : allStarts E.two E.traced starts = some all)
    (H : List.Forall₂ (fun x l => ∃ s, stitchColour E all m1 polys1 x.2 = some s ∧
      sealedList d s (sealedArgs m1 E.base (sealedTables d junk S sm E.m0 E.two.faceOf s) below above w) threads = some l) colours lists) :
    sealedAll d junk S sm E starts m1 polys1 below above w wish threads meaning colours =
      some ((colours.zip lists).flatMap (fun y => if sealedAt wish (meaning y.1.1) then y.2.map (fun z => (meaning y.1.1, z)) else [])) := by
  have key : ∀ (colours : List (Bool × List Nat)) (lists : List (List (Mesh P × Info))) (out : List (Place × Mesh P × Info)),
      List.Forall₂ (fun x l => ∃ s, stitchColour E all m1 polys1 x.2 = some s ∧
        sealedList d s (sealedArgs m1 E.base (sealedTables d junk S sm E.m0 E.two.faceOf s) below above w) threads = some l) colours lists →
      colours.foldlM (fun out c =>
        if sealedAt wish (meaning c.1) then
          (stitchColour E all m1 polys1 c.2).bind (fun s =>
            (sealedList d s (sealedArgs m1 E.base (sealedTables d junk S sm E.m0 E.two.faceOf s) below above w) threads).map (fun l => out ++ l.map (fun x => (meaning c.1, x))))
        else some out) out =
      some (out ++ (colours.zip lists).flatMap (fun y => if sealedAt wish (meaning y.1.1) then y.2.map (fun z => (meaning y.1.1, z)) else [])) := by
    intro colours lists out F
    induction F generalizing out with
    | nil => simp
    | @cons x l xs ls hx hxs ih =>
      obtain ⟨s, s1, s2⟩ := hx
      rw [List.foldlM_cons, List.zip_cons_cons, List.flatMap_cons]
      by_cases hw : sealedAt wish (meaning x.1) = true
      · rw [if_pos hw, s1]
        simp only [Option.bind_some, s2, Option.map_some, Option.bind_eq_bind]
        rw [ih, if_pos hw, List.append_assoc]
      · rw [if_neg hw]
        simp only [Option.bind_eq_bind, Option.bind_some]
        rw [ih, if_neg hw, List.nil_append]
  unfold sealedAll
  by_cases hg : (w.keep.below || w.keep.above || w.keep.partly || wish.sealedIn || wish.sealedOut) = true
  · rw [if_pos hg, hall, Option.bind_some, key colours lists [] H, List.nil_append]
  · rw [if_neg hg]
    have hno : ∀ p, sealedAt wish p = false := by
      simp only [Bool.or_eq_true, not_or, Bool.not_eq_true] at hg
      intro p
      cases p
      · exact hg.1.2
      · exact hg.2
    have : ∀ l : List ((Bool × List Nat) × List (Mesh P × Info)), l.flatMap (fun y => if sealedAt wish (meaning y.1.1) then y.2.map (fun z => (meaning y.1.1, z)) else []) = [] := by
      intro l
      rw [List.flatMap_eq_nil_iff]
      intro y _
      rw [hno]; simp
    rw [this]

end Mcut.Stitch
