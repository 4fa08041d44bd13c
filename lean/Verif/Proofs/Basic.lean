import Verif.Model.API
/-!
# Rewriting rules for the monad and the list primitives
-/

namespace Verif

namespace Py
variable {σ α β : Type}

@[simp] theorem pure_apply (a : α) (s : σ) : (pure a : Py σ α) s = (.ok a, s) := rfl
@[simp] theorem raise_apply (e : PyErr) (s : σ) : (raise e : Py σ α) s = (.error e, s) := rfl
@[simp] theorem lift_apply (x : Except PyErr α) (s : σ) : (lift x : Py σ α) s = (x, s) := rfl
@[simp] theorem get_apply (s : σ) : (get : Py σ σ) s = (.ok s, s) := rfl
@[simp] theorem modify_apply (f : σ → σ) (s : σ) : modify f s = (.ok (), f s) := rfl

theorem bind_apply (m : Py σ α) (f : α → Py σ β) (s : σ) :
    (m >>= f) s = match m s with
      | (.ok a, s') => f a s'
      | (.error e, s') => (.error e, s') := rfl

theorem bind_ok {m : Py σ α} {f : α → Py σ β} {s s' : σ} {a : α} (h : m s = (.ok a, s')) :
    (m >>= f) s = f a s' := by rw [bind_apply, h]

theorem bind_error {m : Py σ α} {f : α → Py σ β} {s s' : σ} {e : PyErr} (h : m s = (.error e, s')) :
    (m >>= f) s = (.error e, s') := by rw [bind_apply, h]

@[simp] theorem pure_bind' (a : α) (f : α → Py σ β) (s : σ) : (pure a >>= f) s = f a s := rfl
@[simp] theorem get_bind (f : σ → Py σ β) (s : σ) : (get >>= f) s = f s s := rfl
@[simp] theorem modify_bind (g : σ → σ) (f : Unit → Py σ β) (s : σ) :
    (modify g >>= f) s = f () (g s) := rfl
@[simp] theorem lift_ok_bind (a : α) (f : α → Py σ β) (s : σ) : (lift (.ok a) >>= f) s = f a s := rfl
@[simp] theorem lift_error_bind (e : PyErr) (f : α → Py σ β) (s : σ) :
    (lift (.error e) >>= f) s = (.error e, s) := rfl
@[simp] theorem raise_bind (e : PyErr) (f : α → Py σ β) (s : σ) :
    ((raise e : Py σ α) >>= f) s = (.error e, s) := rfl
@[simp] theorem ite_apply' (c : Prop) [Decidable c] (m m' : Py σ α) (s : σ) :
    (if c then m else m') s = if c then m s else m' s := by split <;> rfl

theorem bind_assoc' {γ : Type} (m : Py σ α) (f : α → Py σ β) (g : β → Py σ γ) :
    ((m >>= f) >>= g) = (m >>= fun a => f a >>= g) := by
  funext s
  simp only [bind_apply]
  rcases m s with ⟨_ | _, _⟩ <;> rfl

end Py

section Lists
variable {α β : Type}

@[simp] theorem getItem_append_cons (A : List α) (b : α) (C : List α) {n : Nat} (h : n = A.length) :
    getItem (A ++ b :: C) n = .ok b := by subst h; simp [getItem]

theorem getItem_ok {l : List α} {i : Nat} (h : i < l.length) : getItem l i = .ok l[i] := by
  simp [getItem, h]

theorem getItem_error {l : List α} {i : Nat} (h : l.length ≤ i) : getItem l i = .error .indexError := by
  simp [getItem, List.getElem?_eq_none h]

theorem lastItem_of_getLast? {l : List α} {a : α} (h : l.getLast? = some a) : lastItem l = .ok a := by
  simp [lastItem, h]

@[simp] theorem lastItem_concat (l : List α) (a : α) : lastItem (l ++ [a]) = .ok a := by
  simp [lastItem]

theorem lastItem_ok {l : List α} (h : l ≠ []) : lastItem l = .ok (l.getLast h) := by
  simp [lastItem, List.getLast?_eq_some_getLast h]

@[simp] theorem lastItem_nil : lastItem ([] : List α) = .error .indexError := rfl

@[simp] theorem set_append_cons (A : List α) (b c : α) (C : List α) {n : Nat} (h : n = A.length) :
    (A ++ b :: C).set n c = A ++ c :: C := by subst h; simp

@[simp] theorem setItem_append_cons (A : List α) (b c : α) (C : List α) {n : Nat} (h : n = A.length) :
    setItem (A ++ b :: C) n c = .ok (A ++ c :: C) := by subst h; simp [setItem]

@[simp] theorem delItem_append_cons (A : List α) (b : α) (C : List α) {n : Nat} (h : n = A.length) :
    delItem (A ++ b :: C) n = .ok (A ++ C) := by
  subst h; simp [delItem, List.eraseIdx_append_of_length_le]

theorem insertAt_append (A C : List α) (b : α) {n : Nat} (h : n = A.length) :
    insertAt (A ++ C) n b = A ++ b :: C := by subst h; simp [insertAt]

theorem mapE_ok {f : α → Except PyErr β} {g : α → β} (l : List α) (h : ∀ a ∈ l, f a = .ok (g a)) :
    mapE f l = .ok (l.map g) := by
  induction l with
  | nil => rfl
  | cons a l ih =>
    simp only [mapE, h a (by simp), ih (fun x hx => h x (by simp [hx])), List.map_cons]

theorem mapE_eq_ok_iff {f : α → Except PyErr β} {l : List α} {r : List β} :
    mapE f l = .ok r ↔ l.map f = r.map .ok := by
  induction l generalizing r with
  | nil => cases r <;> simp [mapE]
  | cons a l ih =>
    simp only [mapE]
    cases h : f a with
    | error e => cases r <;> simp [h]
    | ok b =>
      cases h' : mapE f l with
      | error e =>
        cases r with
        | nil => simp
        | cons c r =>
          simp only [List.map_cons, List.cons.injEq, h, Except.ok.injEq]
          constructor
          · intro h; cases h
          · rintro ⟨_, h2⟩; rw [← ih, h'] at h2; cases h2
      | ok bs =>
        cases r with
        | nil => simp
        | cons c r =>
          have := @ih bs
          rw [h'] at this
          simp only [true_iff] at this
          simp only [List.map_cons, List.cons.injEq, h, Except.ok.injEq, this, List.map_inj_right
            (fun _ _ h => Except.ok.inj h)]

theorem getItems_range' (l : List α) (a n : Nat) (h : a + n ≤ l.length) :
    getItems l (List.range' a n) = .ok ((l.drop a).take n) := by
  rw [getItems, mapE_eq_ok_iff]
  apply List.ext_getElem
  · simp; omega
  · intro i h1 h2
    simp only [List.length_map, List.length_range'] at h1
    simp only [List.getElem_map, List.getElem_range', List.getElem_take, List.getElem_drop, Nat.one_mul]
    rw [getItem_ok (by omega)]

theorem getItems_reverse {l : List α} {ns : List Nat} {r : List α} (h : getItems l ns = .ok r) :
    getItems l ns.reverse = .ok r.reverse := by
  rw [getItems, mapE_eq_ok_iff] at *
  rw [List.map_reverse, h, List.map_reverse]

end Lists
end Verif
