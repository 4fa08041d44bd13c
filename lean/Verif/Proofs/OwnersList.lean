import Verif.Proofs.Owners
import Verif.Proofs.Keeps
/-!
# What `add` and `remove` of the sorted lists do whatever other threads do: they keep the load factor, and raise IndexError or ValueError at worst
-/

namespace Verif
namespace Prog
variable {σ β γ δ : Type} {errs : PyErr → Prop} {f : σ → δ}

/-- `MayRaise` and `Leaves` -/
def Mild (errs : PyErr → Prop) (f : σ → δ) : Prog σ β → Prop
  | ret x => ∀ e, x = .error e → errs e
  | read k => ∀ s, Mild errs f (k s)
  | write g k => (∀ s, f (g s) = f s) ∧ Mild errs f k

theorem Mild.mayRaise {m : Prog σ β} (h : m.Mild errs f) : m.MayRaise errs := by
  induction m with
  | ret x => exact h
  | read k ih => exact fun s => ih s (h s)
  | write g k ih => exact ih h.2

theorem Mild.leaves {m : Prog σ β} (h : m.Mild errs f) : m.Leaves f := by
  induction m with
  | ret x => trivial
  | read k ih => exact fun s => ih s (h s)
  | write g k ih => exact ⟨h.1, ih h.2⟩

theorem Mild.bind {m : Prog σ β} {k : β → Prog σ γ} (h : m.Mild errs f) (hk : ∀ b, (k b).Mild errs f) : (m >>= k).Mild errs f := by
  induction m with
  | ret x =>
    rcases x with e | b
    · exact fun e' he => by cases he; exact h e rfl
    · exact hk b
  | read k' ih => exact fun s => ih s (h s)
  | write g k' ih => exact ⟨h.1, ih h.2⟩

theorem Mild.pure (b : β) : (Pure.pure b : Prog σ β).Mild errs f := fun e h => by cases h

theorem Mild.get_bind {k : σ → Prog σ γ} (hk : ∀ s, (k s).Mild errs f) : (Prog.get >>= k).Mild errs f := hk

theorem Mild.lift_bind {x : Except PyErr β} {k : β → Prog σ γ} (hx : ∀ e, x = .error e → errs e) (hk : ∀ b, (k b).Mild errs f) : (Prog.lift x >>= k).Mild errs f :=
  Mild.bind (m := Prog.lift x) hx hk

theorem Mild.modify_bind {g : σ → σ} {k : Unit → Prog σ γ} (hg : ∀ s, f (g s) = f s) (hk : (k ()).Mild errs f) : (Prog.modify g >>= k).Mild errs f := ⟨hg, hk⟩

theorem Mild.modify {g : σ → σ} (hg : ∀ s, f (g s) = f s) : (Prog.modify g).Mild errs f := ⟨hg, fun e h => by cases h⟩

theorem Mild.ite {c : Prop} [Decidable c] {m n : Prog σ β} (hm : m.Mild errs f) (hn : n.Mild errs f) : (if c then m else n).Mild errs f := by
  split
  · exact hm
  · exact hn

end Prog

section Lists
variable {α κ : Type}

theorem getItem_err (l : List α) (i : Nat) : ∀ e, getItem l i = .error e → listErr e := by
  intro e h; unfold getItem at h; split at h <;> cases h; exact .inl rfl

theorem lastItem_err (l : List α) : ∀ e, lastItem l = .error e → listErr e := by
  intro e h; unfold lastItem at h; split at h <;> cases h; exact .inl rfl

theorem setItem_err (l : List α) (i : Nat) (a : α) : ∀ e, setItem l i a = .error e → listErr e := by
  intro e h; unfold setItem at h; split at h <;> cases h; exact .inl rfl

theorem delItem_err (l : List α) (i : Nat) : ∀ e, delItem l i = .error e → listErr e := by
  intro e h; unfold delItem at h; split at h <;> cases h; exact .inl rfl

theorem bisectRightLoop_err {lt : α → α → Except PyErr Bool} (hlt : ∀ a b, ∃ r, lt a b = .ok r) (a : List α) (x : α) (lo hi : Nat) :
    ∀ e, bisectRightLoop lt a x lo hi = .error e → listErr e := by
  intro e h
  induction lo, hi using bisectRightLoop.induct lt a x with
  | case1 lo hi hlt' e' he => rw [bisectRightLoop, dif_pos hlt', he] at h; cases h; exact getItem_err _ _ _ he
  | case2 lo hi hlt' m hm e' he => obtain ⟨r, hr⟩ := hlt x m; rw [hr] at he; cases he
  | case3 lo hi hlt' m hm he ih => rw [bisectRightLoop, dif_pos hlt', hm] at h; simp only [he] at h; exact ih h
  | case4 lo hi hlt' m hm he ih => rw [bisectRightLoop, dif_pos hlt', hm] at h; simp only [he] at h; exact ih h
  | case5 lo hi hlt' => rw [bisectRightLoop, dif_neg hlt'] at h; cases h

theorem bisectLeftLoop_err {lt : α → α → Except PyErr Bool} (hlt : ∀ a b, ∃ r, lt a b = .ok r) (a : List α) (x : α) (lo hi : Nat) :
    ∀ e, bisectLeftLoop lt a x lo hi = .error e → listErr e := by
  intro e h
  induction lo, hi using bisectLeftLoop.induct lt a x with
  | case1 lo hi hlt' e' he => rw [bisectLeftLoop, dif_pos hlt', he] at h; cases h; exact getItem_err _ _ _ he
  | case2 lo hi hlt' m hm e' he => obtain ⟨r, hr⟩ := hlt m x; rw [hr] at he; cases he
  | case3 lo hi hlt' m hm he ih => rw [bisectLeftLoop, dif_pos hlt', hm] at h; simp only [he] at h; exact ih h
  | case4 lo hi hlt' m hm he ih => rw [bisectLeftLoop, dif_pos hlt', hm] at h; simp only [he] at h; exact ih h
  | case5 lo hi hlt' => rw [bisectLeftLoop, dif_neg hlt'] at h; cases h

theorem bisectRight_err {lt : α → α → Except PyErr Bool} (hlt : ∀ a b, ∃ r, lt a b = .ok r) (a : List α) (x : α) : ∀ e, bisectRight lt a x = .error e → listErr e :=
  bisectRightLoop_err hlt a x _ _

theorem bisectLeft_err {lt : α → α → Except PyErr Bool} (hlt : ∀ a b, ∃ r, lt a b = .ok r) (a : List α) (x : α) : ∀ e, bisectLeft lt a x = .error e → listErr e :=
  bisectLeftLoop_err hlt a x _ _

theorem insort_err {lt : α → α → Except PyErr Bool} (hlt : ∀ a b, ∃ r, lt a b = .ok r) (a : List α) (x : α) : ∀ e, insort lt a x = .error e → listErr e := by
  intro e h
  unfold insort at h
  split at h
  · rename_i e' he; cases h; exact bisectRight_err hlt a x _ he
  · cases h

theorem ok_err {β : Type} {x : Except PyErr β} (h : ∃ r, x = .ok r) {errs : PyErr → Prop} : ∀ e, x = .error e → errs e := by
  intro e he; obtain ⟨r, hr⟩ := h; rw [hr] at he; cases he

end Lists

namespace Threads
open Prog
variable {α κ : Type}

local macro "keeps" : tactic => `(tactic| exact fun _ => rfl)

theorem bumpPath_mild (g : Nat → Nat) (child : Nat) : (bumpPath (α := α) (κ := κ) g child).Mild listErr St.load := by
  induction child using Nat.strongRecOn with
  | _ child ih =>
    unfold bumpPath
    refine .get_bind fun s => .lift_bind (getItem_err _ _) fun x => .modify_bind (fun _ => rfl) ?_
    split
    · exact .pure _
    · exact ih _ (by omega)

theorem touchIndex_mild (g : Nat → Nat) (pos : Nat) : (touchIndex (α := α) (κ := κ) g pos).Mild listErr St.load :=
  .get_bind fun _ => .ite (.pure _) <| .get_bind fun _ => bumpPath_mild g _

theorem changeLen_mild (g : Nat → Nat) : (changeLen (α := α) (κ := κ) g).Mild listErr St.load := .get_bind fun _ => .modify fun _ => rfl

namespace SL

theorem expand_mild (pos : Nat) : (expand (α := α) pos).Mild listErr St.load :=
  .get_bind fun _ => .lift_bind (getItem_err _ _) fun _ => .ite
    (.modify_bind (fun _ => rfl) <| .lift_bind (lastItem_err _) fun _ => .lift_bind (setItem_err _ _ _) fun _ => .modify_bind (fun _ => rfl) <|
      .modify_bind (fun _ => rfl) <| .lift_bind (lastItem_err _) fun _ => .modify_bind (fun _ => rfl) <| .modify fun _ => rfl)
    (touchIndex_mild _ _)

theorem add_mild {E : Env α} (hlt : ∀ a b, ∃ r, E.lt a b = .ok r) (v : α) : (add E v).Mild listErr St.load := by
  refine .get_bind fun s => ?_
  refine .ite ?_ ?_
  · refine .lift_bind (bisectRight_err hlt _ _) fun pos => ?_
    refine .ite ?_ ?_
    · exact .get_bind fun _ => .lift_bind (getItem_err _ _) fun _ => .modify_bind (fun _ => rfl) <| .modify_bind (fun _ => rfl) <|
        .bind (expand_mild _) fun _ => changeLen_mild _
    · exact .get_bind fun _ => .lift_bind (getItem_err _ _) fun _ => .lift_bind (insort_err hlt _ _) fun _ => .modify_bind (fun _ => rfl) <|
        .bind (expand_mild _) fun _ => changeLen_mild _
  · exact .modify_bind (fun _ => rfl) <| .modify_bind (fun _ => rfl) <| changeLen_mild _

theorem delete_mild (pos idx : Nat) : (delete (α := α) pos idx).Mild listErr St.load := by
  refine .get_bind fun s => .lift_bind (getItem_err _ _) fun _ => .lift_bind (delItem_err _ _) fun l => .modify_bind (fun _ => rfl) <| .bind (changeLen_mild _) fun _ => ?_
  refine .ite ?_ (.ite ?_ (.ite ?_ ?_))
  · exact .lift_bind (lastItem_err _) fun _ => .lift_bind (setItem_err _ _ _) fun _ => .modify_bind (fun _ => rfl) <| touchIndex_mild _ _
  · exact .get_bind fun _ => .lift_bind (getItem_err _ _) fun _ => .lift_bind (getItem_err _ _) fun _ => .modify_bind (fun _ => rfl) <| .lift_bind (lastItem_err _) fun _ =>
      .lift_bind (setItem_err _ _ _) fun _ => .modify_bind (fun _ => rfl) <| .get_bind fun _ => .lift_bind (delItem_err _ _) fun _ => .modify_bind (fun _ => rfl) <|
      .lift_bind (delItem_err _ _) fun _ => .modify_bind (fun _ => rfl) <| .modify_bind (fun _ => rfl) <| expand_mild _
  · exact .lift_bind (lastItem_err _) fun _ => .lift_bind (setItem_err _ _ _) fun _ => .modify fun _ => rfl
  · exact .get_bind fun _ => .lift_bind (delItem_err _ _) fun _ => .modify_bind (fun _ => rfl) <| .lift_bind (delItem_err _ _) fun _ => .modify_bind (fun _ => rfl) <|
      .modify fun _ => rfl

theorem remove_mild {E : Env α} (hlt : ∀ a b, ∃ r, E.lt a b = .ok r) (heq : ∀ a b, ∃ r, E.cmp .eq a b = .ok r) (v : α) : (remove E v).Mild listErr St.load := by
  have hv : (Prog.raise .valueError : Prog (St α α) Unit).Mild listErr St.load := fun e h => by cases h; exact .inr rfl
  refine .get_bind fun s => .ite hv ?_
  refine .lift_bind (bisectLeft_err hlt _ _) fun _ => .ite hv ?_
  refine .lift_bind (getItem_err _ _) fun _ => .lift_bind (bisectLeft_err hlt _ _) fun _ => .lift_bind (getItem_err _ _) fun _ => .lift_bind (ok_err (heq _ _)) fun _ => ?_
  exact .ite (delete_mild _ _) hv

end SL

namespace SKL

theorem expand_mild (pos : Nat) : (expand (α := α) (κ := κ) pos).Mild listErr St.load :=
  .get_bind fun _ => .lift_bind (getItem_err _ _) fun _ => .ite
    (.lift_bind (getItem_err _ _) fun _ => .modify_bind (fun _ => rfl) <| .modify_bind (fun _ => rfl) <| .lift_bind (lastItem_err _) fun _ => .lift_bind (setItem_err _ _ _) fun _ =>
      .modify_bind (fun _ => rfl) <| .modify_bind (fun _ => rfl) <| .modify_bind (fun _ => rfl) <| .lift_bind (lastItem_err _) fun _ => .modify_bind (fun _ => rfl) <| .modify fun _ => rfl)
    (touchIndex_mild _ _)

theorem add_mild {K : KEnv α κ} (hkey : ∀ a, ∃ r, K.key a = .ok r) (hlt : ∀ a b, ∃ r, K.lt a b = .ok r) (v : α) : (add K v).Mild listErr St.load := by
  refine .get_bind fun s => .lift_bind (ok_err (hkey v)) fun key => ?_
  refine .ite ?_ ?_
  · refine .lift_bind (bisectRight_err hlt _ _) fun pos => ?_
    refine .ite ?_ ?_
    · exact .lift_bind (getItem_err _ _) fun _ => .modify_bind (fun _ => rfl) <| .lift_bind (getItem_err _ _) fun _ => .modify_bind (fun _ => rfl) <| .modify_bind (fun _ => rfl) <|
        .bind (expand_mild _) fun _ => changeLen_mild _
    · exact .lift_bind (getItem_err _ _) fun _ => .lift_bind (bisectRight_err hlt _ _) fun _ => .lift_bind (getItem_err _ _) fun _ => .modify_bind (fun _ => rfl) <|
        .modify_bind (fun _ => rfl) <| .bind (expand_mild _) fun _ => changeLen_mild _
  · exact .modify_bind (fun _ => rfl) <| .modify_bind (fun _ => rfl) <| .modify_bind (fun _ => rfl) <| changeLen_mild _

theorem delete_mild (pos idx : Nat) : (delete (α := α) (κ := κ) pos idx).Mild listErr St.load := by
  refine .get_bind fun s => .lift_bind (getItem_err _ _) fun _ => .lift_bind (getItem_err _ _) fun _ => .lift_bind (delItem_err _ _) fun _ => .modify_bind (fun _ => rfl) <|
    .lift_bind (delItem_err _ _) fun l => .modify_bind (fun _ => rfl) <| .bind (changeLen_mild _) fun _ => ?_
  refine .ite ?_ (.ite ?_ (.ite ?_ ?_))
  · exact .lift_bind (lastItem_err _) fun _ => .lift_bind (setItem_err _ _ _) fun _ => .modify_bind (fun _ => rfl) <| touchIndex_mild _ _
  · exact .get_bind fun _ => .lift_bind (getItem_err _ _) fun _ => .lift_bind (getItem_err _ _) fun _ => .modify_bind (fun _ => rfl) <|
      .lift_bind (getItem_err _ _) fun _ => .lift_bind (getItem_err _ _) fun _ => .modify_bind (fun _ => rfl) <| .lift_bind (lastItem_err _) fun _ =>
      .lift_bind (setItem_err _ _ _) fun _ => .modify_bind (fun _ => rfl) <| .get_bind fun _ => .lift_bind (delItem_err _ _) fun _ => .modify_bind (fun _ => rfl) <|
      .lift_bind (delItem_err _ _) fun _ => .modify_bind (fun _ => rfl) <| .lift_bind (delItem_err _ _) fun _ => .modify_bind (fun _ => rfl) <| .modify_bind (fun _ => rfl) <| expand_mild _
  · exact .lift_bind (lastItem_err _) fun _ => .lift_bind (setItem_err _ _ _) fun _ => .modify fun _ => rfl
  · exact .get_bind fun _ => .lift_bind (delItem_err _ _) fun _ => .modify_bind (fun _ => rfl) <| .lift_bind (delItem_err _ _) fun _ => .modify_bind (fun _ => rfl) <|
      .lift_bind (delItem_err _ _) fun _ => .modify_bind (fun _ => rfl) <| .modify fun _ => rfl

theorem findLoop_err {K : KEnv α κ} (hne : ∀ a b, ∃ r, K.kcmp .ne a b = .ok r) (heq : ∀ a b, ∃ r, K.vcmp .eq a b = .ok r) (lists : List (List α)) (keys : List (List κ)) (value : α) (key : κ)
    (pos idx len : Nat) : ∀ e, Verif.SKL.findLoop K lists keys value key pos idx len = .error e → listErr e := by
  intro e h
  fun_induction Verif.SKL.findLoop K lists keys value key pos idx len
  all_goals first
    | (cases h; exact getItem_err _ _ _ ‹_›)
    | (cases h; exact ok_err (hne _ _) _ ‹_›)
    | (cases h; exact ok_err (heq _ _) _ ‹_›)
    | (cases h; done)
    | (rename_i ih; exact ih h)

theorem find_mild {K : KEnv α κ} (hkey : ∀ a, ∃ r, K.key a = .ok r) (hlt : ∀ a b, ∃ r, K.lt a b = .ok r) (hne : ∀ a b, ∃ r, K.kcmp .ne a b = .ok r) (heq : ∀ a b, ∃ r, K.vcmp .eq a b = .ok r)
    (v : α) : (Prog.look (Verif.SKL.find K v)).Mild listErr St.load := by
  intro s
  refine (show ∀ e, (Verif.SKL.find K v s).1 = .error e → listErr e from ?_)
  unfold Verif.SKL.find
  rw [Py.get_bind]
  have lift : ∀ {β γ : Type} (x : Except PyErr β) (k : β → Py (St α κ) γ), (∀ e, x = .error e → listErr e) → (∀ b e, (k b s).1 = .error e → listErr e) →
      ∀ e, ((Py.lift x >>= k) s).1 = .error e → listErr e := by
    intro β γ x k hx hk e h
    rcases x with e' | b
    · cases h; exact hx _ rfl
    · exact hk b e h
  split
  · exact fun e h => by cases h
  refine lift _ _ (ok_err (hkey v)) fun key => lift _ _ (bisectLeft_err hlt _ _) fun pos => ?_
  split
  · exact fun e h => by cases h
  refine lift _ _ (getItem_err _ _) fun ks => lift _ _ (bisectLeft_err hlt _ _) fun idx => ?_
  exact findLoop_err hne heq _ _ _ _ _ _ _

theorem remove_mild {K : KEnv α κ} (hkey : ∀ a, ∃ r, K.key a = .ok r) (hlt : ∀ a b, ∃ r, K.lt a b = .ok r) (hne : ∀ a b, ∃ r, K.kcmp .ne a b = .ok r) (heq : ∀ a b, ∃ r, K.vcmp .eq a b = .ok r)
    (v : α) : (remove K v).Mild listErr St.load := by
  refine .bind (find_mild hkey hlt hne heq v) fun r => ?_
  rcases r with _ | ⟨p, i⟩
  · exact fun e h => by cases h; exact .inr rfl
  · exact delete_mild p i

end SKL
end Threads
end Verif
