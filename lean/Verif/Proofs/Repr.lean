import Verif.Spec.Repr
import Verif.Proofs.Saved

/-!
Lemmas about `repr` and `==` of catalogues.
-/

namespace TreeCorr
namespace Catalog

variable {R : Type} [Field R] [DecidableEq R] {m : ℕ}

theorem zipEq_iff : ∀ a b : List (Option R), (a.length = b.length ∧ ∀ p ∈ a.zip b, numEq p.1 p.2 = true) ↔ a = b ∧ none ∉ a
  | [], [] => by simp
  | [], _ :: _ => by simp
  | _ :: _, [] => by simp
  | x :: a, y :: b => by
    have ih := zipEq_iff a b
    simp only [List.length_cons, Nat.add_right_cancel_iff, List.zip_cons_cons, List.mem_cons, forall_eq_or_imp, List.cons.injEq, not_or]
    constructor
    · rintro ⟨h1, h2, h3⟩
      have := ih.1 ⟨h1, h3⟩
      cases x <;> cases y <;> simp_all [numEq]
    · rintro ⟨⟨rfl, rfl⟩, h2, h3⟩
      have := ih.2 ⟨rfl, h3⟩
      cases x <;> simp_all [numEq]

theorem arrayEq_iff (a b : Option (List (Option R))) : arrayEq a b = true ↔ a = b ∧ ∀ l, a = some l → none ∉ l := by
  cases a with
  | none => cases b <;> simp [arrayEq]
  | some a =>
    cases b with
    | none => simp [arrayEq]
    | some b =>
      have := zipEq_iff a b
      simp only [arrayEq, Bool.and_eq_true, decide_eq_true_eq, List.all_eq_true, Option.some.injEq, forall_eq']
      exact this

/-- What is printed is what C83 writes to a file, and reading it back gives the same. -/
theorem finish_printed [CharZero R] (s : Settings R) (C : Cat R) (hC : IsCat m C) (hp : Positions s.xyz C.tab) (patch : Bool)
    (hpatch : patch = true → C.tab.patch.isSome) (hfl : ∀ c, s.flip c = false) (hk : s.keepZero = true ∨ C.anyZero = false)
    (h0 : C.sumw ≠ some 0) :
    finishInput s { C.printed with patch := if patch then C.tab.patch else none } = .ok (C.bare patch) := by
  rw [← readBack_toFile s Units.one Units.one_ok C hC hp (Want.ofFile patch (C.toFile Units.one)) patch rfl hpatch hfl hk h0]
  symm
  unfold readBack
  rw [if_neg]
  swap
  · rintro (⟨c, -, h1, h2⟩ | ⟨h1, h2⟩ | ⟨h1, h2⟩ | ⟨h1, h2⟩)
    · simp [Want.ofFile, h2] at h1
    · simp [Want.ofFile, h2] at h1
    · simp [Want.ofFile, h2] at h1
    · have := hpatch h1
      simp only [Cat.toFile] at h2
      simp [h2] at this
  congr 1
  have hone : ∀ c, (Units.one : Units R).of c ≠ 0 := Units.one_ok.of
  simp only [Tab.mk.injEq]
  refine ⟨?_, ?_, ?_, rfl, ?_⟩
  · funext c
    rw [ite_isSome (b := (Want.ofFile patch (C.toFile Units.one)).col c) (o := (C.toFile Units.one).col c) rfl]
    unfold Positions at hp
    cases hra : C.tab.col .ra with
    | none =>
      rw [hra] at hp
      cases c <;> simp [Cat.printed, Cat.toFile, hra, hp.1, hp.2.1, -Option.map_map, map_mul_div (hone _)]
    | some ra =>
      cases c <;> simp [Cat.printed, Cat.toFile, hra, -Option.map_map, map_mul_div (hone _), mul_div_by (hone _)]
  · have := ite_isSome (b := (Want.ofFile patch (C.toFile Units.one)).w) (o := (C.toFile Units.one).w) rfl id
    rw [Option.map_id, id] at this
    rw [this]
    rfl
  · have := ite_isSome (b := (Want.ofFile patch (C.toFile Units.one)).wpos) (o := (C.toFile Units.one).wpos) rfl id
    rw [Option.map_id, id] at this
    rw [this]
    rfl
  · rfl

/-- The constructor finds nothing wrong with what is printed. -/
theorem fromArrays_printed (s : Settings R) (C : Cat R) (hC : IsCat m C) (hp : Positions s.xyz C.tab) (P : Option (List ℤ))
    (hP : ∀ l, P = some l → l.length = m) :
    fromArrays s none { C.printed with patch := P } = finishInput s { C.printed with patch := P } := by
  unfold Positions at hp
  have hcol : ∀ c l, C.printed.col c = some l → l.length = m := by
    intro c l h
    refine (hC.clean.col c l ?_).1
    revert h
    cases c <;> simp only [Cat.printed] <;> (try split_ifs) <;> simp
  have hw : ∀ l, C.printed.w = some l → l.length = m := by
    intro l h
    simp only [Cat.printed] at h
    split_ifs at h
    exact (hC.clean.w l h).1
  have hn : (C.printed.col .x).elim ((C.printed.col .ra).getD []).length List.length = m := by
    cases hx : C.printed.col .x with
    | some l => exact hcol _ _ hx
    | none =>
      cases hra : C.printed.col .ra with
      | some l => exact hcol _ _ hra
      | none =>
        have h1 : C.tab.col .ra = none := hra
        rw [h1] at hp
        simp only [Cat.printed, h1, Option.isNone_none, if_true] at hx
        simp [hx] at hp
  have hl : lengthsOk { C.printed with patch := P } = true := by
    simp only [lengthsOk, hn]
    simp only [Bool.and_eq_true, List.all_eq_true, Option.all_eq_true, decide_eq_true_eq]
    refine ⟨⟨⟨⟨fun c _ l h => hcol c l h, fun l h => hw l h⟩, fun l h => (hC.clean.wpos l h).1⟩, hP⟩, hC.pos.ne'⟩
  unfold fromArrays
  rw [if_neg, if_neg, if_neg (by simp [hl])]
  · cases hra : C.tab.col .ra with
    | none => rw [hra] at hp; simp [Cat.printed, hra, hp.1]
    | some ra => rw [hra] at hp; obtain ⟨dec, hd, -⟩ := hp; simp [Cat.printed, hra, hd]
  · cases hra : C.tab.col .ra with
    | none => rw [hra] at hp; simp [Cat.printed, hra, hp.2.2.1, hp.2.2.2]
    | some ra => simp [Cat.printed, hra]

end Catalog
end TreeCorr
