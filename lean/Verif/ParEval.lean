import Verif.ParMem

/-!
# Evaluation of programs that return a value

`Prog.eval` executes a program alone; `solo` is its special case for loop iterations.
-/

namespace Verif

variable {L : Type} [DecidableEq L]

/-- Execute alone; `none` is a fault. -/
def Prog.eval {α : Type} (alloc : L → Prop) [DecidablePred alloc] :
    Prog L α → Mem L → Option (α × Mem L)
  | .ret a, m => some (a, m)
  | .load l k, m => match m l with
    | none => none
    | some v => if alloc l then Prog.eval alloc (k v) m else none
  | .store l v k, m =>
    if alloc l then Prog.eval alloc k (Function.update m l (some v)) else none

variable (alloc : L → Prop) [DecidablePred alloc]

theorem solo_eq_eval (p : Task L) : ∀ m, solo alloc p m = (p.eval alloc m).map Prod.snd := by
  induction p with
  | ret a => intro m; rfl
  | load l k ih =>
    intro m
    simp only [solo, Prog.eval]
    cases m l with
    | none => rfl
    | some v => dsimp only; split_ifs <;> simp [ih]
  | store l v k ih =>
    intro m
    simp only [solo, Prog.eval]
    split_ifs <;> simp [ih]

theorem Prog.eval_bind {α β : Type} (p : Prog L α) (f : α → Prog L β) : ∀ m,
    (p.bind f).eval alloc m = (p.eval alloc m).bind (fun r => (f r.1).eval alloc r.2) := by
  induction p with
  | ret a => intro m; rfl
  | load l k ih =>
    intro m
    simp only [Prog.bind, Prog.eval]
    cases m l with
    | none => rfl
    | some v => dsimp only; split_ifs <;> simp [ih]
  | store l v k ih =>
    intro m
    simp only [Prog.bind, Prog.eval]
    split_ifs <;> simp [ih]

variable {alloc}

theorem Prog.eval_rd {l : L} {v : ℝ} {m : Mem L} (ha : alloc l) (hm : m l = some v) :
    (Prog.rd l).eval alloc m = some (v, m) := by
  simp only [Prog.rd, Prog.eval, hm, ha, if_true]

theorem Prog.eval_wr {l : L} {v : ℝ} {m : Mem L} (ha : alloc l) :
    (Prog.wr l v).eval alloc m = some ((), Function.update m l (some v)) := by
  simp only [Prog.wr, Prog.eval, ha, if_true]

/-- Evaluation of `p >>= f` when `p` succeeds without changing memory. -/
theorem Prog.eval_bind_some {α β : Type} {p : Prog L α} {f : α → Prog L β} {m m' : Mem L} {a : α}
    (h : p.eval alloc m = some (a, m')) :
    (p >>= f).eval alloc m = (f a).eval alloc m' := by
  rw [Prog.bind_eq, Prog.eval_bind, h]; rfl

theorem Prog.eval_pure {α : Type} (a : α) (m : Mem L) :
    (pure a : Prog L α).eval alloc m = some (a, m) := rfl

omit [DecidableEq L]

/-- loads of a sequence -/
theorem Prog.mayLoad_bind {α β : Type} {x : L} {p : Prog L α} {f : α → Prog L β} :
    (p >>= f).MayLoad x → p.MayLoad x ∨ ∃ a, (f a).MayLoad x := by
  rw [Prog.bind_eq]
  induction p with
  | ret a => intro h; exact Or.inr ⟨a, h⟩
  | load l k ih =>
    rintro (h | ⟨v, h⟩)
    · exact Or.inl (Or.inl h)
    · rcases ih v h with h | h
      · exact Or.inl (Or.inr ⟨v, h⟩)
      · exact Or.inr h
  | store l v k ih =>
    intro h
    rcases ih h with h | h
    · exact Or.inl h
    · exact Or.inr h

/-- stores of a sequence -/
theorem Prog.mayStore_bind {α β : Type} {x : L} {p : Prog L α} {f : α → Prog L β} :
    (p >>= f).MayStore x → p.MayStore x ∨ ∃ a, (f a).MayStore x := by
  rw [Prog.bind_eq]
  induction p with
  | ret a => intro h; exact Or.inr ⟨a, h⟩
  | load l k ih =>
    rintro ⟨v, h⟩
    rcases ih v h with h | h
    · exact Or.inl ⟨v, h⟩
    · exact Or.inr h
  | store l v k ih =>
    rintro (h | h)
    · exact Or.inl (Or.inl h)
    · rcases ih h with h | h
      · exact Or.inl (Or.inr h)
      · exact Or.inr h

@[simp] theorem Prog.mayLoad_rd {x l : L} : (Prog.rd l).MayLoad x ↔ l = x := by
  simp [Prog.rd, Prog.MayLoad]
@[simp] theorem Prog.mayStore_rd {x l : L} : ¬ (Prog.rd l).MayStore x := by
  simp [Prog.rd, Prog.MayStore]
@[simp] theorem Prog.mayLoad_wr {x l : L} {v : ℝ} : ¬ (Prog.wr l v).MayLoad x := by
  simp [Prog.wr, Prog.MayLoad]
@[simp] theorem Prog.mayStore_wr {x l : L} {v : ℝ} : (Prog.wr l v).MayStore x ↔ l = x := by
  simp [Prog.wr, Prog.MayStore]
@[simp] theorem Prog.mayLoad_pure {α : Type} {x : L} {a : α} : ¬ (pure a : Prog L α).MayLoad x := by
  simp [Prog.MayLoad]
@[simp] theorem Prog.mayStore_pure {α : Type} {x : L} {a : α} :
    ¬ (pure a : Prog L α).MayStore x := by
  simp [Prog.MayStore]

end Verif
