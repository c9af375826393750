import Mathlib.Data.List.Perm.Basic
import Mathlib.Data.List.Nodup

/-!
# Go primitives used by the model

* `Res`  : outcome of a Go function returning `(T, error)` which may also panic.
* `Map`  : Go map as an association list.  A `range` statement over a map visits the entries in an arbitrary order;
  functions which `range` over a map take the visiting order (a list which is a permutation of the map's entries)
  as a parameter.
-/
set_option linter.unusedSectionVars false
namespace Verif.Go

/-- Outcome of a Go call: a value, an error value, or a run-time panic. Error texts are kept when the code compares them. -/
inductive Res (α : Type) where
  | ok (a : α)
  | err (e : String)
  | panic
  deriving DecidableEq, Repr

namespace Res
/-- Sequencing with early return on error (`if err != nil { return ..., err }`) and panic propagation. -/
def bind {α β : Type} (r : Res α) (f : α → Res β) : Res β :=
  match r with
  | ok a => f a
  | err e => err e
  | panic => panic

instance : Monad Res where
  pure := ok
  bind := bind

/-- the call returned without an error -/
def isOk {α : Type} : Res α → Bool
  | ok _ => true
  | _ => false

@[simp] theorem bind_ok {α β : Type} (a : α) (f : α → Res β) : bind (ok a) f = f a := rfl
@[simp] theorem bind_err {α β : Type} (e : String) (f : α → Res β) : bind (err e) f = err e := rfl
@[simp] theorem bind_panic {α β : Type} (f : α → Res β) : bind panic f = panic := rfl

theorem bind_eq_ok {α β : Type} {r : Res α} {f : α → Res β} {b : β} :
    bind r f = ok b ↔ ∃ a, r = ok a ∧ f a = ok b := by
  cases r <;> simp [bind]
end Res

/-- A choice of the order in which a `range` over a map or a set visits the elements. -/
structure Shuffle (α : Type) where
  f : List α → List α
  perm : ∀ l, (f l).Perm l

/-- the storage order -/
def Shuffle.id (α : Type) : Shuffle α := ⟨fun l => l, fun _ => List.Perm.refl _⟩

/-- the reverse order -/
def Shuffle.rev (α : Type) : Shuffle α := ⟨List.reverse, List.reverse_perm⟩

theorem Shuffle.mem {α : Type} (σ : Shuffle α) {l : List α} {a : α} : a ∈ σ.f l ↔ a ∈ l := (σ.perm l).mem_iff

/-- A Go `map[K]V` as association list. -/
abbrev Map (K V : Type) := List (K × V)

namespace Map
variable {K V : Type} [DecidableEq K]

/-- `m[k]` with the comma-ok flag. -/
def get : Map K V → K → Option V
  | [], _ => none
  | (k', v) :: m, k => if k' = k then some v else get m k

/-- `m[k] = v`. -/
def set : Map K V → K → V → Map K V
  | [], k, v => [(k, v)]
  | (k', v') :: m, k, v => if k' = k then (k, v) :: m else (k', v') :: set m k v

/-- `delete(m, k)`. -/
def del : Map K V → K → Map K V
  | [], _ => []
  | (k', v') :: m, k => if k' = k then del m k else (k', v') :: del m k

/-- the keys, in storage order -/
def keys (m : Map K V) : List K := m.map Prod.fst

/-- well-formedness: a Go map has at most one entry for a key -/
def WF (m : Map K V) : Prop := (keys m).Nodup

/-- a possible visiting order of `for k, v := range m` -/
def Order (m : Map K V) (order : List (K × V)) : Prop := order.Perm m

@[simp] theorem get_nil (k : K) : get ([] : Map K V) k = none := rfl

@[simp] theorem get_set_self (m : Map K V) (k : K) (v : V) : get (set m k v) k = some v := by
  induction m with
  | nil => simp [set, get]
  | cons p m ih =>
    obtain ⟨k', v'⟩ := p
    by_cases h : k' = k <;> simp [set, get, h, ih]

theorem get_set_ne (m : Map K V) {k k' : K} (v : V) (h : k' ≠ k) : get (set m k v) k' = get m k' := by
  induction m with
  | nil => simp [set, get, Ne.symm h]
  | cons p m ih =>
    obtain ⟨k'', v''⟩ := p
    by_cases h1 : k'' = k
    · subst h1; simp [set, get, Ne.symm h]
    · simp [set, get, h1, ih]

theorem get_set (m : Map K V) (k k' : K) (v : V) :
    get (set m k v) k' = if k' = k then some v else get m k' := by
  by_cases h : k' = k
  · subst h; simp
  · simp [h, get_set_ne m v h]

@[simp] theorem get_del_self (m : Map K V) (k : K) : get (del m k) k = none := by
  induction m with
  | nil => rfl
  | cons p m ih =>
    obtain ⟨k', v'⟩ := p
    by_cases h : k' = k <;> simp [del, get, h, ih]

theorem get_del_ne (m : Map K V) {k k' : K} (h : k' ≠ k) : get (del m k) k' = get m k' := by
  induction m with
  | nil => rfl
  | cons p m ih =>
    obtain ⟨k'', v''⟩ := p
    by_cases h1 : k'' = k
    · subst h1; simp [del, get, Ne.symm h, ih]
    · simp [del, get, h1, ih]

theorem get_del (m : Map K V) (k k' : K) :
    get (del m k) k' = if k' = k then none else get m k' := by
  by_cases h : k' = k
  · subst h; simp
  · simp [h, get_del_ne m h]

@[simp] theorem keys_nil : keys ([] : Map K V) = [] := rfl
@[simp] theorem keys_cons (p : K × V) (m : Map K V) : keys (p :: m) = p.1 :: keys m := rfl

theorem get_eq_none_iff (m : Map K V) (k : K) : get m k = none ↔ k ∉ keys m := by
  induction m with
  | nil => simp
  | cons p m ih =>
    obtain ⟨k', v'⟩ := p
    by_cases h : k' = k
    · simp [get, h]
    · simp [get, h, ih, Ne.symm h]

theorem get_isSome_iff (m : Map K V) (k : K) : (get m k).isSome ↔ k ∈ keys m := by
  rw [← not_iff_not, ← get_eq_none_iff]; simp

theorem mem_keys_set (m : Map K V) (k k' : K) (v : V) : k' ∈ keys (set m k v) ↔ k' = k ∨ k' ∈ keys m := by
  rw [← get_isSome_iff, ← get_isSome_iff, get_set]
  by_cases h : k' = k <;> simp [h]

theorem mem_keys_del (m : Map K V) (k k' : K) : k' ∈ keys (del m k) ↔ k' ≠ k ∧ k' ∈ keys m := by
  rw [← get_isSome_iff, ← get_isSome_iff, get_del]
  by_cases h : k' = k <;> simp [h]

theorem WF_nil : WF ([] : Map K V) := List.nodup_nil

theorem WF_cons {p : K × V} {m : Map K V} : WF (p :: m) ↔ p.1 ∉ keys m ∧ WF m := by
  simp [WF, keys]

theorem WF_set {m : Map K V} (h : WF m) (k : K) (v : V) : WF (set m k v) := by
  induction m with
  | nil => simp [set, WF, keys]
  | cons p m ih =>
    obtain ⟨k', v'⟩ := p
    rw [WF_cons] at h
    by_cases h1 : k' = k
    · subst h1; simp only [set, if_true]; rw [WF_cons]; exact h
    · simp only [set, h1, if_false]; rw [WF_cons]
      refine ⟨?_, ih h.2⟩
      rw [mem_keys_set]
      rintro (h2 | h2)
      · exact h1 h2
      · exact h.1 h2

theorem WF_del {m : Map K V} (h : WF m) (k : K) : WF (del m k) := by
  induction m with
  | nil => simpa [del] using h
  | cons p m ih =>
    obtain ⟨k', v'⟩ := p
    rw [WF_cons] at h
    by_cases h1 : k' = k
    · simp only [del, h1, if_true]; exact ih h.2
    · simp only [del, h1, if_false]; rw [WF_cons]
      refine ⟨?_, ih h.2⟩
      rw [mem_keys_del]
      exact fun h2 => h.1 h2.2

theorem mem_of_get {m : Map K V} {k : K} {v : V} (h : get m k = some v) : (k, v) ∈ m := by
  induction m with
  | nil => simp at h
  | cons p m ih =>
    obtain ⟨k', v'⟩ := p
    by_cases h1 : k' = k
    · simp [get, h1] at h; simp [h1, h]
    · simp [get, h1] at h; simp [ih h]

theorem get_of_mem {m : Map K V} (hm : WF m) {k : K} {v : V} (h : (k, v) ∈ m) : get m k = some v := by
  induction m with
  | nil => simp at h
  | cons p m ih =>
    obtain ⟨k', v'⟩ := p
    rw [WF_cons] at hm
    rcases List.mem_cons.1 h with h1 | h1
    · cases h1; simp [get]
    · have hk : k ∈ keys m := List.mem_map.2 ⟨(k, v), h1, rfl⟩
      have : k' ≠ k := by rintro rfl; exact hm.1 hk
      simp [get, this, ih hm.2 h1]

theorem mem_iff_get {m : Map K V} (hm : WF m) {k : K} {v : V} : (k, v) ∈ m ↔ get m k = some v :=
  ⟨get_of_mem hm, mem_of_get⟩

theorem WF_perm {m m' : Map K V} (h : m.Perm m') : WF m ↔ WF m' := by
  unfold WF keys; exact (h.map Prod.fst).nodup_iff

theorem get_perm {m m' : Map K V} (hm : WF m) (h : m.Perm m') (k : K) : get m k = get m' k := by
  have hm' := (WF_perm h).1 hm
  apply Option.ext
  intro v
  rw [← mem_iff_get hm, ← mem_iff_get hm', h.mem_iff]

theorem set_of_not_mem {m : Map K V} {k : K} (h : k ∉ keys m) (v : V) : set m k v = m ++ [(k, v)] := by
  induction m with
  | nil => rfl
  | cons p m ih =>
    obtain ⟨k', v'⟩ := p
    simp at h
    simp [set, Ne.symm h.1, ih h.2]

theorem length_set (m : Map K V) (k : K) (v : V) :
    (set m k v).length = if k ∈ keys m then m.length else m.length + 1 := by
  induction m with
  | nil => simp [set]
  | cons p m ih =>
    obtain ⟨k', v'⟩ := p
    by_cases h : k' = k
    · simp [set, h]
    · simp only [set, h, if_false, List.length_cons, ih, keys_cons, List.mem_cons, Ne.symm h, false_or]
      split <;> rfl

theorem keys_set_of_mem {m : Map K V} {k : K} (h : k ∈ keys m) (v : V) : keys (set m k v) = keys m := by
  induction m with
  | nil => simp at h
  | cons p m ih =>
    obtain ⟨k', v'⟩ := p
    by_cases h1 : k' = k
    · simp [set, h1]
    · have : k ∈ keys m := by simpa [Ne.symm h1] using h
      simp [set, h1, ih this]

theorem nodup_of_WF {m : Map K V} (h : WF m) : m.Nodup := List.Nodup.of_map _ h

theorem del_sublist (m : Map K V) (k : K) : (del m k).Sublist m := by
  induction m with
  | nil => simp [del]
  | cons p m ih =>
    obtain ⟨k', v'⟩ := p
    by_cases h1 : k' = k
    · simp only [del, h1, if_true]; exact ih.cons _
    · simp only [del, h1, if_false]; exact ih.cons_cons _

theorem del_of_not_mem {m : Map K V} {k : K} (h : k ∉ keys m) : del m k = m := by
  induction m with
  | nil => rfl
  | cons p m ih =>
    obtain ⟨k', v'⟩ := p
    simp at h
    simp [del, Ne.symm h.1, ih h.2]

end Map
end Verif.Go
