import Verif.Proof.Phases
import Verif.Spec.Locks
/-! # Lemmas about locks -/

namespace MapEditr
open Spec Locks
set_option linter.unusedSimpArgs false

/-- What a connection has made of the map, and whether it has got a lock by reading or writing, or has written. -/
structure Sight where
  cur : Table
  rd : Bool
  wr : Bool

/-- How a connection in a transaction stands to the file: `t` is what was in it when it got its first lock. -/
def Eyes (f : File) (x : Who) (t : Table) (s : Sight) : Prop :=
  (x ∉ f.readers ∧ f.writer ≠ some x ∧ s = ⟨t, false, false⟩) ∨
  (x ∈ f.readers ∧ f.content = t ∧ f.view x = s.cur ∧ (f.writer ≠ some x → s.wr = false) ∧ (s.wr = false → s.cur = t))

/-- How a connection stands to the file. -/
def Stands (p : Phase) (f : File) (x : Who) (t : Table) (s : Sight) : Prop :=
  match p with
  | .fresh => f.inTx x = false ∧ x ∉ f.readers ∧ f.writer ≠ some x ∧ s = ⟨t, false, false⟩
  | .begun => f.inTx x = true ∧ x ∉ f.readers ∧ f.writer ≠ some x ∧ s = ⟨t, false, false⟩
  | .looking => f.inTx x = true ∧ Eyes f x t s
  | .over => f.inTx x = false ∧ x ∉ f.readers ∧ f.writer ≠ some x

theorem upd_self (f : Who → α) (x : Who) (a : α) : upd f x a x = a := if_pos rfl
theorem upd_other (f : Who → α) {x y : Who} (a : α) (h : x ≠ y) : upd f y a x = f x := if_neg h

/-- What concerns `x` is the same. -/
structure Undisturbed (f g : File) (x : Who) : Prop where
  inTx : g.inTx x = f.inTx x
  readers : x ∈ g.readers ↔ x ∈ f.readers
  view : g.view x = f.view x
  writer : g.writer = some x ↔ f.writer = some x
  content : x ∈ f.readers → g.content = f.content

theorem undisturbed_refl (f : File) (x : Who) : Undisturbed f f x := ⟨rfl, Iff.rfl, rfl, Iff.rfl, fun _ => rfl⟩

theorem undisturbed_trans {f g h : File} {x : Who} (a : Undisturbed f g x) (b : Undisturbed g h x) : Undisturbed f h x :=
  ⟨b.inTx.trans a.inTx, b.readers.trans a.readers, b.view.trans a.view, b.writer.trans a.writer,
    fun e => (b.content (a.readers.2 e)).trans (a.content e)⟩

theorem stands_same {p : Phase} {f g : File} {x : Who} {t : Table} {s : Sight} (h : Stands p f x t s)
    (u : Undisturbed f g x) : Stands p g x t s := by
  obtain ⟨h1, h2, h3, h4, h5⟩ := u
  have h4' : g.writer ≠ some x ↔ f.writer ≠ some x := not_congr h4
  cases p with
  | fresh => obtain ⟨a, b, c, d⟩ := h; exact ⟨h1.trans a, fun e => b (h2.1 e), h4'.2 c, d⟩
  | begun => obtain ⟨a, b, c, d⟩ := h; exact ⟨h1.trans a, fun e => b (h2.1 e), h4'.2 c, d⟩
  | looking =>
    obtain ⟨a, ⟨b, c, d⟩ | ⟨b, c, d, e, e'⟩⟩ := h
    · exact ⟨h1.trans a, .inl ⟨fun e => b (h2.1 e), h4'.2 c, d⟩⟩
    · exact ⟨h1.trans a, .inr ⟨h2.2 b, (h5 b).trans c, h3.trans d, fun k => e (h4'.1 k), e'⟩⟩
  | over => obtain ⟨a, b, c⟩ := h; exact ⟨h1.trans a, fun e => b (h2.1 e), h4'.2 c⟩

theorem share_content (f : File) (x : Who) : (f.share x).content = f.content := by unfold File.share; split <;> rfl
theorem share_inTx (f : File) (x : Who) : (f.share x).inTx = f.inTx := by unfold File.share; split <;> rfl
theorem share_writer (f : File) (x : Who) : (f.share x).writer = f.writer := by unfold File.share; split <;> rfl
theorem share_exclusive (f : File) (x : Who) : (f.share x).exclusive = f.exclusive := by unfold File.share; split <;> rfl
theorem share_readers (f : File) (x y : Who) : y ∈ (f.share x).readers ↔ y = x ∨ y ∈ f.readers := by
  unfold File.share
  split
  · rename_i h
    exact ⟨.inr, fun e => e.elim (fun e => e ▸ h) id⟩
  · exact List.mem_cons
theorem share_view (f : File) {x y : Who} (h : y ≠ x) : (f.share x).view y = f.view y := by
  unfold File.share
  split
  · rfl
  · exact upd_other _ _ h
theorem share_in {f : File} {x : Who} (h : x ∈ f.readers) : f.share x = f := if_pos h
theorem share_new {f : File} {x : Who} (h : x ∉ f.readers) : (f.share x).view x = f.content := by
  unfold File.share; rw [if_neg h]; exact upd_self _ _ _

theorem undisturbed_share {f : File} {x y : Who} (hxy : x ≠ y) : Undisturbed f (f.share y) x :=
  ⟨by rw [share_inTx], by rw [share_readers]; simp [hxy], share_view _ hxy, by rw [share_writer],
    fun _ => share_content _ _⟩

theorem undisturbed_leave {f : File} {x y : Who} (hxy : x ≠ y) : Undisturbed f (f.leave y) x := by
  refine ⟨upd_other _ _ hxy, ?_, rfl, ?_, fun _ => rfl⟩
  · simp [File.leave, hxy]
  · show (if f.writer = some y then none else f.writer) = some x ↔ _
    split
    · rename_i e
      rw [e]
      simp [hxy.symm]
    · exact Iff.rfl

theorem canStore_other {f : File} {x y : Who} (hxy : x ≠ y) (hx : x ∈ f.readers) : f.canStore y = false := by
  cases h : f.canStore y with
  | false => rfl
  | true =>
    unfold File.canStore at h
    rw [List.all_eq_true] at h
    exact absurd (beq_iff_eq.1 (h x hx)) hxy

theorem undisturbed_change {f g : File} {x y : Who} {sp : Bool} {e : Table → Table} (hxy : x ≠ y)
    (hs : f.change y sp e = some g) : Undisturbed f g x := by
  unfold File.change at hs
  split at hs
  · rename_i hc
    simp only [Bool.and_eq_true, Bool.or_eq_true] at hc
    obtain ⟨⟨-, h2⟩, h3⟩ := hc
    have hw : f.writer ≠ some x := by
      intro e
      unfold File.canWrite at h2
      rw [e] at h2
      simp [hxy] at h2
    split at hs
    · cases hs
      refine undisturbed_trans (undisturbed_share hxy) ⟨rfl, Iff.rfl, upd_other _ _ hxy, ?_, fun _ => rfl⟩
      rw [share_writer]
      simp [hxy.symm, hw]
    · rename_i hi
      cases hs
      refine ⟨rfl, Iff.rfl, rfl, Iff.rfl, fun hx => ?_⟩
      rcases h3 with ⟨h3, -⟩ | h3
      · exact absurd h3 hi
      · rw [canStore_other hxy hx] at h3; cases h3
  · cases hs

/-- Others do not disturb a connection. -/
theorem undisturbed_step {f g : File} {x y : Who} {sp kp : Bool} {s : Sql} (hxy : x ≠ y)
    (hs : f.step y sp kp s = some g) : Undisturbed f g x := by
  have hr : ∀ {b : Bool} {g}, (if f.canRead y then some (if b then f.share y else f) else none) = some g →
      Undisturbed f g x := by
    intro b g hs
    split at hs
    · cases hs
      split
      · exact undisturbed_share hxy
      · exact undisturbed_refl _ _
    · cases hs
  cases s with
  | «open» => cases hs; exact undisturbed_refl _ _
  | prepare => cases hs; exact undisturbed_refl _ _
  | «begin» =>
    simp only [File.step] at hs
    split at hs
    · cases hs
    · cases hs
      exact ⟨upd_other _ _ hxy, Iff.rfl, rfl, Iff.rfl, fun _ => rfl⟩
  | tableInfo => exact hr hs
  | selectAll => exact hr hs
  | select k => exact hr hs
  | put k d => exact undisturbed_change (e := (·.put k d)) hxy hs
  | del k => exact undisturbed_change (e := (·.del k)) hxy hs
  | commit =>
    simp only [File.step] at hs
    split at hs
    · cases hs
    · split at hs
      · split at hs
        · rename_i hc
          cases hs
          refine undisturbed_trans (undisturbed_leave (y := y) hxy) ⟨rfl, Iff.rfl, rfl, Iff.rfl, fun hx => ?_⟩
          have hx : x ∈ f.readers := by
            simp only [File.leave, List.mem_filter] at hx
            exact hx.1
          rw [canStore_other hxy hx] at hc
          cases hc
        · cases hs
      · cases hs; exact undisturbed_leave hxy
  | rollback => cases hs; exact undisturbed_leave hxy
  | vacuum =>
    simp only [File.step] at hs
    split at hs
    · cases hs; exact undisturbed_refl _ _
    · cases hs

theorem undisturbed_others {f : File} {i : DbId} (l : List Move) : Undisturbed f (others f l) (.us i) := by
  unfold others
  induction l generalizing f with
  | nil => exact undisturbed_refl _ _
  | cons m l ih =>
    rw [List.foldl_cons]
    refine undisturbed_trans ?_ ih
    cases hs : f.step (.other m.who) m.spill m.keep m.stmt with
    | none => exact undisturbed_refl _ _
    | some g => exact undisturbed_step (by simp) hs

theorem undisturbed_now {c : Company} {f : File} {i : DbId} (l : List Did) :
    Undisturbed (c.after f l) (c.now f l) (.us i) := undisturbed_others _

/-- What a statement does to what a connection sees. -/
def Sight.next (s : Sight) (keep : Bool) : Sql → Sight
  | .put k d => ⟨s.cur.put k d, true, true⟩
  | .del k => ⟨s.cur.del k, true, true⟩
  | .selectAll => ⟨s.cur, true, s.wr⟩
  | .select _ => ⟨s.cur, true, s.wr⟩
  | .tableInfo => ⟨s.cur, s.rd || keep, s.wr⟩
  | _ => s

/-- What a connection has made of the map after some statements. -/
def sight (keep : Nat → Bool) (i : DbId) (t : Table) (l : List Did) : Sight × Nat :=
  l.foldl (fun s d => (if d.db = i ∧ d.ok = true then s.1.next (keep s.2) d.stmt else s.1, s.2 + 1)) (⟨t, false, false⟩, 0)

theorem sight_len (keep : Nat → Bool) (i : DbId) (t : Table) (l : List Did) : (sight keep i t l).2 = l.length := by
  induction l using snoc_ind with
  | nil => rfl
  | snoc l d ih => unfold sight at ih ⊢; rw [List.foldl_append, List.length_append, ← ih]; rfl

theorem sight_snoc (keep : Nat → Bool) (i : DbId) (t : Table) (l : List Did) (d : Did) :
    (sight keep i t (l ++ [d])).1 =
      if d.db = i ∧ d.ok = true then (sight keep i t l).1.next (keep l.length) d.stmt else (sight keep i t l).1 := by
  rw [← sight_len keep i t l]
  unfold sight
  rw [List.foldl_append]
  rfl

theorem stands_leave_self {f : File} {x : Who} : (f.leave x).inTx x = false ∧ x ∉ (f.leave x).readers ∧
    (f.leave x).writer ≠ some x := by
  refine ⟨upd_self _ _ _, by simp [File.leave], ?_⟩
  show (if f.writer = some x then none else f.writer) ≠ some x
  split
  · simp
  · assumption

/-- With a lock. -/
theorem eyes_share {f : File} {x : Who} {t : Table} {s : Sight} (h : Eyes f x t s) (hl : x ∉ f.readers → f.content = t) :
    f.content = t ∧ (f.share x).view x = s.cur ∧ (f.writer ≠ some x → s.wr = false) ∧ (s.wr = false → s.cur = t) := by
  rcases h with ⟨b, c, rfl⟩ | ⟨b, c, d, e, e'⟩
  · exact ⟨hl b, (share_new b).trans (hl b), fun _ => rfl, fun _ => rfl⟩
  · exact ⟨c, by rw [share_in b]; exact d, e, e'⟩

theorem change_self {f g : File} {x : Who} {t : Table} {s : Sight} {sp : Bool} {e : Table → Table}
    (h : Stands .looking f x t s) (hs : f.change x sp e = some g) (hl : x ∉ f.readers → x ∈ g.readers → f.content = t) :
    Stands .looking g x t ⟨e s.cur, true, true⟩ ∧ g.content = f.content := by
  obtain ⟨a, h⟩ := h
  unfold File.change at hs
  by_cases hc : (f.canRead x && f.canWrite x && ((f.inTx x && !sp) || f.canStore x)) = true
  · rw [if_pos hc, if_pos a] at hs
    cases hs
    have hm : x ∈ (f.share x).readers := (share_readers _ _ _).2 (.inl rfl)
    obtain ⟨h1, h2, -, -⟩ := eyes_share h fun e => hl e hm
    refine ⟨⟨by rw [share_inTx]; exact a, .inr ⟨hm, ?_, ?_, fun h => absurd rfl h, by rintro ⟨⟩⟩⟩, share_content _ _⟩
    · exact (share_content _ _).trans h1
    · exact (upd_self _ _ _).trans (by rw [h2])
  · rw [if_neg hc] at hs; cases hs

/-- What the connection does itself. -/
theorem stands_self {p q : Phase} {f g : File} {x : Who} {t : Table} {cur : Sight} {sp kp : Bool} {s : Sql}
    (h : Stands p f x t cur) (hp : p.next s = some q) (hs : f.step x sp kp s = some g)
    (hl : x ∉ f.readers → x ∈ g.readers ∨ s = .commit → f.content = t) :
    Stands q g x t (cur.next kp s) ∧
    (s ≠ .commit → g.content = f.content) ∧
    (s = .commit → f.content = t ∧ g.content = cur.cur ∧ (f.writer = some x → f.canStore x = true)) := by
  have hr : ∀ {s g}, Stands .looking f x t cur → (x ∉ f.readers → x ∈ g.readers → f.content = t) →
      cur.next kp s = ⟨cur.cur, true, cur.wr⟩ → s ≠ .commit →
      (if f.canRead x then some (if f.inTx x then f.share x else f) else none) = some g →
      Stands .looking g x t (cur.next kp s) ∧ (s ≠ .commit → g.content = f.content) ∧
      (s = .commit → f.content = t ∧ g.content = cur.cur ∧ (f.writer = some x → f.canStore x = true)) := by
    intro s g h hl e1 e2 hs
    split at hs
    · rw [h.1, if_pos rfl] at hs
      cases hs
      have hm : x ∈ (f.share x).readers := (share_readers _ _ _).2 (.inl rfl)
      obtain ⟨h1, h2, h3, h4⟩ := eyes_share h.2 fun e => hl e hm
      rw [e1]
      exact ⟨⟨by rw [share_inTx]; exact h.1, .inr ⟨hm, (share_content _ _).trans h1, h2, by rw [share_writer]; exact h3, h4⟩⟩,
        fun _ => share_content _ _, fun e => absurd e e2⟩
    · cases hs
  cases p with
  | fresh =>
    obtain ⟨a, b, c, d⟩ := h
    cases s <;> simp only [Phase.next, Option.some.injEq, reduceCtorEq] at hp
    · cases hs; cases hp
      exact ⟨⟨a, b, c, d⟩, fun _ => rfl, by simp⟩
    · simp only [File.step] at hs
      rw [a, if_neg (by simp)] at hs
      cases hs; cases hp
      exact ⟨⟨upd_self _ _ _, b, c, d⟩, fun _ => rfl, by simp⟩
  | begun =>
    obtain ⟨a, b, c, rfl⟩ := h
    cases s <;> simp only [Phase.next, Option.some.injEq, reduceCtorEq] at hp
    simp only [File.step, a, Bool.true_and] at hs
    split at hs
    · cases hp
      cases kp with
      | false =>
        cases hs
        exact ⟨⟨a, .inl ⟨b, c, rfl⟩⟩, fun _ => rfl, by simp⟩
      | true =>
        cases hs
        have hm : x ∈ (f.share x).readers := (share_readers _ _ _).2 (.inl rfl)
        have hl := hl b (.inl hm)
        exact ⟨⟨by rw [if_pos rfl, share_inTx]; exact a, .inr ⟨hm, (share_content _ _).trans hl, (share_new b).trans hl,
          fun _ => rfl, fun _ => rfl⟩⟩, fun _ => share_content _ _, by simp⟩
    · cases hs
  | looking =>
    cases s <;> simp only [Phase.next, Option.some.injEq, reduceCtorEq] at hp
    case commit =>
      cases hp
      obtain ⟨a, h⟩ := h
      simp only [File.step] at hs
      rw [a] at hs
      simp only [Bool.not_true, Bool.false_eq_true, if_false] at hs
      split at hs
      · rename_i h1
        split at hs
        · rename_i h2
          cases hs
          rcases h with ⟨-, c, -⟩ | ⟨b, c, d, e, e'⟩
          · exact absurd h1 c
          · exact ⟨stands_leave_self, fun e => absurd rfl e, fun _ => ⟨c, d, fun _ => h2⟩⟩
        · cases hs
      · rename_i h1
        cases hs
        obtain ⟨h2, -, h3, h4⟩ := eyes_share h fun e => hl e (.inr rfl)
        exact ⟨stands_leave_self, fun e => absurd rfl e, fun _ => ⟨h2, h2.trans (h4 (h3 h1)).symm, fun h => absurd h h1⟩⟩
    case prepare => cases hs; cases hp; exact ⟨h, fun _ => rfl, by simp⟩
    case selectAll => cases hp; exact hr h (fun e1 e2 => hl e1 (.inl e2)) rfl (by simp) hs
    case select k => cases hp; exact hr h (fun e1 e2 => hl e1 (.inl e2)) rfl (by simp) hs
    case put k d =>
      cases hp
      have := change_self (e := (·.put k d)) h hs fun e1 e2 => hl e1 (.inl e2)
      exact ⟨this.1, fun _ => this.2, by simp⟩
    case del k =>
      cases hp
      have := change_self (e := (·.del k)) h hs fun e1 e2 => hl e1 (.inl e2)
      exact ⟨this.1, fun _ => this.2, by simp⟩
  | over =>
    cases s <;> simp only [Phase.next, Option.some.injEq, reduceCtorEq] at hp
    simp only [File.step] at hs
    split at hs
    · cases hs; cases hp; exact ⟨h, fun _ => rfl, by simp⟩
    · cases hs

/-! ## Along a run -/

theorem turn_len (c : Company) (f : File) (tr : List Did) : (tr.foldl c.turn (f, 0)).2 = tr.length := by
  induction tr using snoc_ind with
  | nil => rfl
  | snoc l d ih => rw [List.foldl_append, List.length_append, ← ih]; rfl

theorem turn_eq (c : Company) (s : File × Nat) (d : Did) : c.turn s d =
    (if d.ok && c.uses d.db then
      ((others s.1 (c.before s.2)).step (.us d.db) (c.spill s.2) (c.keep s.2) d.stmt).getD (others s.1 (c.before s.2))
    else others s.1 (c.before s.2), s.2 + 1) := rfl

theorem after_snoc (c : Company) (f : File) (l : List Did) (d : Did) : c.after f (l ++ [d]) =
    if d.ok && c.uses d.db then ((c.now f l).step (.us d.db) (c.spill l.length) (c.keep l.length) d.stmt).getD (c.now f l)
    else c.now f l := by
  unfold Company.after Company.now
  rw [List.foldl_append]
  show (c.turn (l.foldl c.turn (f, 0)) d).1 = _
  rw [turn_eq, turn_len]
  rfl

theorem seesAlone_snoc (i : DbId) (t : Table) (l : List Did) (d : Did) : seesAlone i t (l ++ [d]) =
    if d.db = i ∧ d.ok = true then
      (Conn.step (l.foldl (fun c d => if d.db = i ∧ d.ok = true then c.step d.stmt else c) ⟨t, t, false, []⟩) d.stmt).cur
    else seesAlone i t l := by
  unfold seesAlone
  rw [List.foldl_append]
  show (if d.db = i ∧ d.ok = true then _ else _ : Conn).cur = _
  split <;> rfl

theorem step_sees {c : Conn} {s : Sql} (keep : Bool) {v : Sight} (h : s ≠ .rollback) (hv : v.cur = c.cur) :
    (v.next keep s).cur = (c.step s).cur := by
  cases s <;> first | exact hv | skip
  · exact absurd rfl h
  · show v.cur.put _ _ = (c.change _).cur
    unfold Conn.change; rw [hv]; split <;> rfl
  · show v.cur.del _ = (c.change _).cur
    unfold Conn.change; rw [hv]; split <;> rfl

theorem allowed_init {c : Company} {f : File} {l : List Did} {d : Did} (h : Allowed c f (l ++ [d])) : Allowed c f l := by
  intro n e hn
  have hlt : n < l.length := (List.getElem?_eq_some_iff.1 hn).1
  have := h n e (by rw [List.getElem?_append_left hlt]; exact hn)
  rw [List.take_append_of_le_length (by omega)] at this
  exact this

theorem allowed_last {c : Company} {f : File} {l : List Did} {d : Did} (h : Allowed c f (l ++ [d])) (ho : d.ok = true)
    (hu : c.uses d.db = true) : ((c.now f l).step (.us d.db) (c.spill l.length) (c.keep l.length) d.stmt).isSome = true := by
  have := h l.length d (by simp) ho hu
  rwa [List.take_left' rfl] at this

theorem firstLock_snoc {c : Company} {f : File} {l : List Did} {d : Did} {i : DbId} {n : Nat} (hn : n < l.length) :
    FirstLock c f (l ++ [d]) i n ↔ FirstLock c f l i n := by
  unfold FirstLock
  rw [List.take_append_of_le_length (by omega), List.take_append_of_le_length (by omega), List.getElem?_append_left hn]

theorem looksAt_init {c : Company} {f : File} {l : List Did} {d : Did} {i : DbId} {t : Table}
    (h : LooksAt c f (l ++ [d]) i t) : LooksAt c f l i t := by
  intro n hn hf
  have := h n (by rw [List.length_append]; omega) ((firstLock_snoc hn).2 hf)
  rwa [List.take_append_of_le_length (by omega)] at this

theorem firstLock_last {c : Company} {f : File} {l : List Did} {d : Did} {i : DbId} :
    FirstLock c f (l ++ [d]) i l.length ↔
      Who.us i ∉ (c.now f l).readers ∧ (Who.us i ∈ (c.after f (l ++ [d])).readers ∨ d = ⟨i, .commit, true⟩) := by
  unfold FirstLock
  rw [List.take_left' rfl, List.take_of_length_le (by simp), List.getElem?_append_right (by omega), Nat.sub_self]
  simp

theorem looksAt_last {c : Company} {f : File} {l : List Did} {d : Did} {i : DbId} {t : Table}
    (h : LooksAt c f (l ++ [d]) i t) (h1 : Who.us i ∉ (c.now f l).readers)
    (h2 : Who.us i ∈ (c.after f (l ++ [d])).readers ∨ d = ⟨i, .commit, true⟩) : (c.now f l).content = t := by
  have := h l.length (by simp) (firstLock_last.2 ⟨h1, h2⟩)
  rwa [List.take_left' rfl] at this

theorem phaseStep_ok {b : Bool} {P Q : DbId → Phase} {d : Did} (h : phaseStep b P d = some Q) (ho : d.ok = true) :
    (P d.db).next d.stmt = some (Q d.db) ∧ (∀ j, j ≠ d.db → Q j = P j) ∧
      (b = true → d.stmt = .commit → P .input = .looking) := by
  unfold phaseStep at h
  rw [if_pos ho] at h
  split at h
  · cases h
  · rename_i hc
    cases hn : (P d.db).next d.stmt with
    | none => rw [hn] at h; cases h
    | some q =>
      rw [hn] at h
      cases h
      refine ⟨by simp, fun j hj => if_neg hj, fun h1 h2 => Classical.byContradiction fun h3 => hc ⟨h1, h2, h3⟩⟩

theorem phaseStep_bad {b : Bool} {P Q : DbId → Phase} {d : Did} (h : phaseStep b P d = some Q) (ho : ¬ d.ok = true) :
    Q = P := by
  unfold phaseStep at h
  rw [if_neg ho] at h
  cases h; rfl

theorem phases_last {b : Bool} {l : List Did} {d : Did} {Q : DbId → Phase} (h : phases b (l ++ [d]) = some Q) :
    ∃ P, phases b l = some P ∧ phaseStep b P d = some Q := by
  rw [phases_snoc] at h
  cases hp : phases b l with
  | none => rw [hp] at h; cases h
  | some P => rw [hp] at h; exact ⟨P, rfl, h⟩

theorem next_rollback (p : Phase) : p.next .rollback = none := by cases p <;> rfl

/-- How the run stands to the file, all along. -/
theorem stands_run {c : Company} {f : File} {b : Bool} {i : DbId} {t : Table} (hi : c.uses i = true) (hf : Unused f)
    (l : List Did) : ∀ P, phases b l = some P → Allowed c f l → LooksAt c f l i t →
      Stands (P i) (c.after f l) (.us i) t (sight c.keep i t l).1 := by
  induction l using snoc_ind with
  | nil =>
    intro P hP _ _
    cases hP
    exact ⟨(hf i).1, (hf i).2.1, (hf i).2.2, rfl⟩
  | snoc l d ih =>
    intro Q hQ ha hl
    obtain ⟨P, hP, hs⟩ := phases_last hQ
    have h0 := stands_same (ih P hP (allowed_init ha) (looksAt_init hl)) (undisturbed_now l)
    have hl := fun h1 h2 => looksAt_last hl h1 h2
    rw [after_snoc] at hl ⊢
    rw [sight_snoc]
    by_cases ho : d.ok = true
    · obtain ⟨h1, h2, -⟩ := phaseStep_ok hs ho
      by_cases hd : d.db = i
      · have hu : c.uses d.db = true := by rw [hd]; exact hi
        have hg := allowed_last ha ho hu
        rw [if_pos (show (d.ok && c.uses d.db) = true by rw [ho, hu]; rfl)] at hl ⊢
        rw [if_pos ⟨hd, ho⟩]
        obtain ⟨g, hg⟩ := Option.isSome_iff_exists.1 hg
        rw [hg, Option.getD_some] at hl ⊢
        subst hd
        refine (stands_self h0 h1 hg fun e1 e2 => hl e1 (e2.imp id fun e => ?_)).1
        obtain ⟨db, stmt, ok⟩ := d
        simp only at e ho
        subst e; subst ho; rfl
      · rw [if_neg (c := d.db = i ∧ _) (fun e => hd e.1), h2 i (Ne.symm hd)]
        split
        · cases hg : (c.now f l).step (.us d.db) (c.spill l.length) (c.keep l.length) d.stmt with
          | none => exact h0
          | some g => exact stands_same h0 (undisturbed_step (by simp [Ne.symm hd]) hg)
        · exact h0
    · rw [phaseStep_bad hs ho, if_neg (c := d.db = i ∧ _) (fun e => ho e.2), if_neg (by simp [ho])]
      exact h0

/-! ## What has been done -/

/-- Nothing is rolled back. -/
theorem phases_no_rollback {b : Bool} {l : List Did} {d : Did} (h : (phases b (l ++ [d])).isSome = true) (ho : d.ok = true) :
    d.stmt ≠ .rollback := by
  obtain ⟨Q, hQ⟩ := Option.isSome_iff_exists.1 h
  obtain ⟨P, -, hs⟩ := phases_last hQ
  intro e
  have := (phaseStep_ok hs ho).1
  rw [e, next_rollback] at this
  cases this

theorem sight_cur {keep : Nat → Bool} {b : Bool} {i : DbId} {t : Table} (l : List Did) : (phases b l).isSome = true →
    (sight keep i t l).1.cur = seesAlone i t l := by
  induction l using snoc_ind with
  | nil => intro _; rfl
  | snoc l d ih =>
    intro h
    have ih := ih (by
      obtain ⟨Q, hQ⟩ := Option.isSome_iff_exists.1 h
      obtain ⟨P, hP, -⟩ := phases_last hQ
      rw [hP]; rfl)
    rw [sight_snoc, seesAlone_snoc]
    split
    · rename_i hd
      exact step_sees _ (phases_no_rollback h hd.2) ih
    · exact ih

theorem sight_next_le (s : Sight) (keep : Bool) (q : Sql) : (s.rd = true → (s.next keep q).rd = true) ∧
    (s.wr = true → (s.next keep q).wr = true) := by
  cases q <;> simp [Sight.next] <;> exact fun h => .inl h

theorem sight_read {keep : Nat → Bool} {i : DbId} {t : Table} (l : List Did) :
    (∃ s, ⟨i, s, true⟩ ∈ l ∧ ReadsRows s) → (sight keep i t l).1.rd = true := by
  induction l using snoc_ind with
  | nil => rintro ⟨s, h, -⟩; cases h
  | snoc l d ih =>
    rintro ⟨s, h, hs⟩
    rw [sight_snoc]
    rcases List.mem_append.1 h with h | h
    · split
      · exact (sight_next_le _ _ _).1 (ih ⟨s, h, hs⟩)
      · exact ih ⟨s, h, hs⟩
    · rw [← List.mem_singleton.1 h, if_pos ⟨rfl, rfl⟩]
      rcases hs with rfl | ⟨k, rfl⟩ <;> rfl

theorem sight_wrote {keep : Nat → Bool} {i : DbId} {t : Table} (l : List Did) :
    (∃ s, ⟨i, s, true⟩ ∈ l ∧ WritesRow s) → (sight keep i t l).1.wr = true := by
  induction l using snoc_ind with
  | nil => rintro ⟨s, h, -⟩; cases h
  | snoc l d ih =>
    rintro ⟨s, h, hs⟩
    rw [sight_snoc]
    rcases List.mem_append.1 h with h | h
    · split
      · exact (sight_next_le _ _ _).2 (ih ⟨s, h, hs⟩)
      · exact ih ⟨s, h, hs⟩
    · rw [← List.mem_singleton.1 h, if_pos ⟨rfl, rfl⟩]
      rcases hs with ⟨k, b, rfl⟩ | ⟨k, rfl⟩ <;> rfl

theorem sight_unwritten {keep : Nat → Bool} {i : DbId} {t : Table} (l : List Did)
    (h : ¬ ∃ s, ⟨i, s, true⟩ ∈ l ∧ WritesRow s) : (sight keep i t l).1.wr = false := by
  induction l using snoc_ind with
  | nil => rfl
  | snoc l d ih =>
    have ih := ih fun ⟨s, h1, h2⟩ => h ⟨s, List.mem_append_left _ h1, h2⟩
    rw [sight_snoc]
    split
    · rename_i hd
      have hn : ¬ WritesRow d.stmt := fun e => h ⟨d.stmt, List.mem_append_right _ (by
        obtain ⟨db, s, ok⟩ := d
        simp only at hd
        obtain ⟨rfl, rfl⟩ := hd
        exact List.mem_singleton.2 rfl), e⟩
      cases hq : d.stmt <;> first | exact ih | skip
      · exact absurd (.inl ⟨_, _, hq⟩) hn
      · exact absurd (.inr ⟨_, hq⟩) hn
    · exact ih

theorem sight_kept {keep : Nat → Bool} {b : Bool} {i : DbId} {t : Table} (hk : ∀ n, keep n = true) (l : List Did) :
    ∀ P, phases b l = some P → P i = .looking → (sight keep i t l).1.rd = true := by
  induction l using snoc_ind with
  | nil => intro P hP h; cases hP; cases h
  | snoc l d ih =>
    intro Q hQ h
    obtain ⟨P, hP, hs⟩ := phases_last hQ
    have ih := ih P hP
    rw [sight_snoc]
    by_cases hd : d.db = i ∧ d.ok = true
    · rw [if_pos hd]
      obtain ⟨h1, -⟩ := phaseStep_ok hs hd.2
      rw [hd.1, h] at h1
      cases hp : P i with
      | looking => exact (sight_next_le _ _ _).1 (ih hp)
      | fresh => rw [hp] at h1; cases hq : d.stmt <;> rw [hq] at h1 <;> cases h1
      | over => rw [hp] at h1; cases hq : d.stmt <;> rw [hq] at h1 <;> cases h1
      | begun =>
        rw [hp] at h1
        cases hq : d.stmt <;> rw [hq] at h1 <;> first | cases h1 | skip
        simp [Sight.next, hk]
    · rw [if_neg hd]
      refine ih ?_
      by_cases ho : d.ok = true
      · rw [← (phaseStep_ok hs ho).2.1 i fun e => hd ⟨e.symm, ho⟩]; exact h
      · rw [← phaseStep_bad hs ho]; exact h

/-! ## The first lock -/

theorem own_readers {p q : Phase} {f g : File} {x : Who} {sp kp : Bool} {s : Sql} (hp : p.next s = some q)
    (hs : f.step x sp kp s = some g) :
    (p = .looking → x ∈ f.readers → (q = .looking ∧ x ∈ g.readers) ∨ q = .over) ∧
    (x ∉ f.readers → x ∈ g.readers ∨ s = .commit → (q = .looking ∧ x ∈ g.readers) ∨ (q = .over ∧ p = .looking)) ∧
    (p = .over → q = .over) := by
  have hr : ∀ {b : Bool} {g}, (if f.canRead x then some (if b then f.share x else f) else none) = some g →
      x ∈ f.readers → x ∈ g.readers := by
    intro b g hs h
    split at hs
    · cases hs
      split
      · exact (share_readers _ _ _).2 (.inr h)
      · exact h
    · cases hs
  have hc : ∀ {e g}, f.change x sp e = some g → x ∈ f.readers → x ∈ g.readers := by
    intro e g hs h
    unfold File.change at hs
    split at hs
    · split at hs
      · cases hs; exact (share_readers _ _ _).2 (.inr h)
      · cases hs; exact h
    · cases hs
  cases p with
  | fresh =>
    refine ⟨by simp, fun h1 h2 => ?_, by simp⟩
    cases s <;> simp only [Phase.next, Option.some.injEq, reduceCtorEq] at hp
    · cases hs
      exact absurd (h2.resolve_right (by simp)) h1
    · simp only [File.step] at hs
      split at hs
      · cases hs
      · cases hs
        exact absurd (h2.resolve_right (by simp)) h1
  | begun =>
    refine ⟨by simp, fun h1 h2 => ?_, by simp⟩
    cases s <;> simp only [Phase.next, Option.some.injEq, reduceCtorEq] at hp
    exact .inl ⟨hp.symm, h2.resolve_right (by simp)⟩
  | over =>
    refine ⟨by simp, fun h1 h2 => ?_, fun _ => ?_⟩ <;>
      cases s <;> simp only [Phase.next, Option.some.injEq, reduceCtorEq] at hp
    · simp only [File.step] at hs
      split at hs
      · cases hs
        exact absurd (h2.resolve_right (by simp)) h1
      · cases hs
    · exact hp.symm
  | looking =>
    cases s <;> simp only [Phase.next, Option.some.injEq, reduceCtorEq] at hp
    case commit => exact ⟨fun _ _ => .inr hp.symm, fun _ _ => .inr ⟨hp.symm, rfl⟩, by simp⟩
    case prepare =>
      cases hs
      exact ⟨fun _ h => .inl ⟨hp.symm, h⟩, fun h1 h2 => absurd (h2.resolve_right (by simp)) h1, by simp⟩
    case selectAll =>
      exact ⟨fun _ h => .inl ⟨hp.symm, hr hs h⟩, fun h1 h2 => .inl ⟨hp.symm, h2.resolve_right (by simp)⟩, by simp⟩
    case select k =>
      exact ⟨fun _ h => .inl ⟨hp.symm, hr hs h⟩, fun h1 h2 => .inl ⟨hp.symm, h2.resolve_right (by simp)⟩, by simp⟩
    case put k d =>
      exact ⟨fun _ h => .inl ⟨hp.symm, hc (e := (·.put k d)) hs h⟩,
        fun h1 h2 => .inl ⟨hp.symm, h2.resolve_right (by simp)⟩, by simp⟩
    case del k =>
      exact ⟨fun _ h => .inl ⟨hp.symm, hc (e := (·.del k)) hs h⟩,
        fun h1 h2 => .inl ⟨hp.symm, h2.resolve_right (by simp)⟩, by simp⟩

/-- There is at most one first lock. -/
theorem looks_run {c : Company} {f : File} {b : Bool} {i : DbId} (hi : c.uses i = true) (l : List Did) :
    ∀ P, phases b l = some P → Allowed c f l → ∃ t, LooksAt c f l i t ∧
      ((∃ n, n < l.length ∧ FirstLock c f l i n) →
        (P i = .looking ∧ Who.us i ∈ (c.after f l).readers) ∨ P i = .over) := by
  induction l using snoc_ind with
  | nil => intro P _ _; exact ⟨[], (fun n h => absurd h (Nat.not_lt_zero n)), fun ⟨n, h, _⟩ => absurd h (Nat.not_lt_zero n)⟩
  | snoc l d ih =>
    intro Q hQ ha
    obtain ⟨P, hP, hs⟩ := phases_last hQ
    obtain ⟨t, ht, hh⟩ := ih P hP (allowed_init ha)
    have hnow := (undisturbed_now (c := c) (f := f) (i := i) l).readers
    have len : (l ++ [d]).length = l.length + 1 := by simp
    /- Nothing new. -/
    have old : ¬ FirstLock c f (l ++ [d]) i l.length →
        ((∃ n, n < l.length ∧ FirstLock c f l i n) →
          (Q i = .looking ∧ Who.us i ∈ (c.after f (l ++ [d])).readers) ∨ Q i = .over) →
        ∃ t, LooksAt c f (l ++ [d]) i t ∧ ((∃ n, n < (l ++ [d]).length ∧ FirstLock c f (l ++ [d]) i n) →
          (Q i = .looking ∧ Who.us i ∈ (c.after f (l ++ [d])).readers) ∨ Q i = .over) := by
      intro hn hq
      refine ⟨t, fun n hlt hf => ?_, fun ⟨n, hlt, hf⟩ => ?_⟩
      · rcases Nat.lt_or_eq_of_le (Nat.le_of_lt_succ (len ▸ hlt)) with h | rfl
        · rw [List.take_append_of_le_length (by omega)]
          exact ht n h ((firstLock_snoc h).1 hf)
        · exact absurd hf hn
      · rcases Nat.lt_or_eq_of_le (Nat.le_of_lt_succ (len ▸ hlt)) with h | rfl
        · exact hq ⟨n, h, (firstLock_snoc h).1 hf⟩
        · exact absurd hf hn
    by_cases hd : d.db = i ∧ d.ok = true
    · obtain ⟨hd, ho⟩ := hd
      obtain ⟨h1, -⟩ := phaseStep_ok hs ho
      have hu : c.uses d.db = true := by rw [hd]; exact hi
      obtain ⟨g, hg⟩ := Option.isSome_iff_exists.1 (allowed_last ha ho hu)
      have e : c.after f (l ++ [d]) = g := by
        rw [after_snoc, if_pos (by rw [ho, hu]; rfl), hg]; rfl
      obtain ⟨o1, o2, o3⟩ := own_readers h1 hg
      rw [hd] at o1 o2 o3
      rw [e] at old ⊢
      by_cases hf : FirstLock c f (l ++ [d]) i l.length
      · obtain ⟨f1, f2⟩ := firstLock_last.1 hf
        rw [e] at f2
        have hnot : ¬ ∃ n, n < l.length ∧ FirstLock c f l i n := by
          intro h
          rcases hh h with ⟨-, h⟩ | h
          · exact f1 (hnow.2 h)
          · have hq := o3 h
            rcases o2 f1 (f2.imp id fun e => by rw [e]) with ⟨h', -⟩ | ⟨-, h'⟩
            · rw [hq] at h'; cases h'
            · rw [h] at h'; cases h'
        refine ⟨(c.now f l).content, fun n hlt hf' => ?_, fun _ => ?_⟩
        · rcases Nat.lt_or_eq_of_le (Nat.le_of_lt_succ (len ▸ hlt)) with h | rfl
          · exact absurd ⟨n, h, (firstLock_snoc h).1 hf'⟩ hnot
          · rw [List.take_left' rfl]
        · rcases o2 f1 (f2.imp id fun e => by rw [e]) with h | ⟨h, -⟩
          · exact .inl h
          · exact .inr h
      · refine old hf fun h => ?_
        rcases hh h with ⟨h2, h3⟩ | h2
        · exact o1 h2 (hnow.2 h3)
        · exact .inr (o3 h2)
    · have hQ' : Q i = P i := by
        by_cases ho : d.ok = true
        · exact (phaseStep_ok hs ho).2.1 i fun e => hd ⟨e.symm, ho⟩
        · rw [phaseStep_bad hs ho]
      have hu : Undisturbed (c.now f l) (c.after f (l ++ [d])) (.us i) := by
        rw [after_snoc]
        split
        · rename_i hc
          simp only [Bool.and_eq_true] at hc
          cases hg : (c.now f l).step (.us d.db) (c.spill l.length) (c.keep l.length) d.stmt with
          | none => exact undisturbed_refl _ _
          | some g => exact undisturbed_step (by simp; exact fun e => hd ⟨e.symm, hc.1⟩) hg
        · exact undisturbed_refl _ _
      refine old (fun hf => ?_) fun h => ?_
      · obtain ⟨f1, f2⟩ := firstLock_last.1 hf
        rcases f2 with f2 | f2
        · exact f1 (hu.readers.1 f2)
        · exact hd (by rw [f2]; exact ⟨rfl, rfl⟩)
      · rw [hQ']
        rcases hh h with ⟨h2, h3⟩ | h2
        · exact .inl ⟨h2, hu.readers.2 (hnow.2 h3)⟩
        · exact .inr h2

/-! ## Alone -/

/-- Nobody else has a lock, and `x` is in a transaction if it should. -/
def Lone (p : Phase) (f : File) (x : Who) : Prop :=
  (f.inTx x = true ↔ p = .begun ∨ p = .looking) ∧ (∀ y ∈ f.readers, y = x) ∧
    ((f.writer = none ∧ f.exclusive = false) ∨ f.writer = some x)

theorem lone_share {p : Phase} {f : File} {x : Who} (h : Lone p f x) : Lone p (f.share x) x := by
  refine ⟨by rw [share_inTx]; exact h.1, fun y hy => ?_, by rw [share_writer, share_exclusive]; exact h.2.2⟩
  rcases (share_readers _ _ _).1 hy with e | e
  · exact e
  · exact h.2.1 y e

theorem lone_leave {p q : Phase} {f : File} {x : Who} (h : Lone p f x) (hq : q ≠ .begun ∧ q ≠ .looking) :
    Lone q (f.leave x) x := by
  refine ⟨?_, fun y hy => ?_, .inl ?_⟩
  · rw [show (f.leave x).inTx x = false from upd_self _ _ _]
    simp [hq.1, hq.2]
  · exact h.2.1 y (List.mem_filter.1 hy).1
  · show (if f.writer = some x then none else f.writer) = none ∧ (if f.writer = some x then false else f.exclusive) = false
    rcases h.2.2 with ⟨e1, e2⟩ | e
    · rw [if_neg (by rw [e1]; simp), if_neg (by rw [e1]; simp)]; exact ⟨e1, e2⟩
    · rw [if_pos e, if_pos e]; exact ⟨rfl, rfl⟩

theorem lone_step {p q : Phase} {f : File} {x : Who} {sp kp : Bool} {s : Sql} (h : Lone p f x) (hp : p.next s = some q) :
    ∃ g, f.step x sp kp s = some g ∧ Lone q g x := by
  have hr : f.canRead x = true := by
    unfold File.canRead
    rcases h.2.2 with ⟨-, e⟩ | e <;> rw [e] <;> simp
  have hw : f.canWrite x = true := by
    unfold File.canWrite
    rcases h.2.2 with ⟨e, -⟩ | e <;> rw [e] <;> simp
  have hc : f.canStore x = true := by
    unfold File.canStore
    rw [List.all_eq_true]
    exact fun y hy => beq_iff_eq.2 (h.2.1 y hy)
  have hread : ∀ b : Bool, Lone .looking f x → ∃ g,
      (if f.canRead x then some (if b then f.share x else f) else none) = some g ∧ Lone .looking g x := by
    intro b h
    rw [if_pos hr]
    refine ⟨_, rfl, ?_⟩
    split
    · exact lone_share h
    · exact h
  have hch : ∀ e, f.inTx x = true → Lone .looking f x → ∃ g, f.change x sp e = some g ∧ Lone .looking g x := by
    intro e ht h
    unfold File.change
    rw [if_pos (by rw [hr, hw, hc]; simp), if_pos ht]
    refine ⟨_, rfl, ?_⟩
    exact ⟨(lone_share h).1, (lone_share h).2.1, .inr rfl⟩
  cases p with
  | fresh =>
    have ht : f.inTx x = false := by
      cases e : f.inTx x with
      | false => rfl
      | true => exact absurd (h.1.1 e) (by simp)
    cases s <;> simp only [Phase.next, Option.some.injEq, reduceCtorEq] at hp
    · cases hp; exact ⟨f, rfl, h⟩
    · cases hp
      refine ⟨_, if_neg (by rw [ht]; simp), ⟨?_, h.2.1, h.2.2⟩⟩
      simp [upd_self]
  | begun =>
    have ht := h.1.2 (.inl rfl)
    cases s <;> simp only [Phase.next, Option.some.injEq, reduceCtorEq] at hp
    cases hp
    exact hread _ ⟨by simp [ht], h.2⟩
  | looking =>
    have ht := h.1.2 (.inr rfl)
    cases s <;> simp only [Phase.next, Option.some.injEq, reduceCtorEq] at hp
    case commit =>
      cases hp
      simp only [File.step]
      rw [ht, hc]
      simp only [Bool.not_true, Bool.false_eq_true, if_false, if_true]
      split
      · refine ⟨_, rfl, ?_⟩
        exact lone_leave (q := .over) h (by simp)
      · exact ⟨_, rfl, lone_leave h (by simp)⟩
    case prepare => cases hp; exact ⟨f, rfl, h⟩
    case selectAll => cases hp; exact hread _ h
    case select k => cases hp; exact hread _ h
    case put k d => cases hp; exact hch (·.put k d) ht h
    case del k => cases hp; exact hch (·.del k) ht h
  | over =>
    have ht : f.inTx x = false := by
      cases e : f.inTx x with
      | false => rfl
      | true => exact absurd (h.1.1 e) (by simp)
    cases s <;> simp only [Phase.next, Option.some.injEq, reduceCtorEq] at hp
    cases hp
    exact ⟨f, if_pos (by rw [ht, hr, hw, hc]; rfl), h⟩

theorem lone_run {c : Company} {f : File} {b : Bool} {i : DbId} (hi : ∀ j, c.uses j = true ↔ j = i)
    (hb : ∀ n, c.before n = []) (hf : Lone .fresh f (.us i)) (l : List Did) : ∀ P, phases b l = some P →
      Lone (P i) (c.after f l) (.us i) ∧ Allowed c f l := by
  induction l using snoc_ind with
  | nil =>
    intro P hP
    cases hP
    exact ⟨hf, by intro n d h; simp at h⟩
  | snoc l d ih =>
    intro Q hQ
    obtain ⟨P, hP, hs⟩ := phases_last hQ
    obtain ⟨h0, ha⟩ := ih P hP
    have hn : c.now f l = c.after f l := by unfold Company.now; rw [hb]; rfl
    have key : (d.ok = true → c.uses d.db = true → ∃ g, (c.now f l).step (.us d.db) (c.spill l.length) (c.keep l.length) d.stmt = some g ∧
        Lone (Q i) g (.us i)) := by
      intro ho hu
      have := (hi _).1 hu
      have h1 := (phaseStep_ok hs ho).1
      rw [hn]
      subst this
      exact lone_step h0 h1
    constructor
    · rw [after_snoc]
      by_cases hc : (d.ok && c.uses d.db) = true
      · rw [if_pos hc]
        simp only [Bool.and_eq_true] at hc
        obtain ⟨g, hg, h⟩ := key hc.1 hc.2
        rw [hg]; exact h
      · rw [if_neg hc, hn]
        have hQ' : Q i = P i := by
          by_cases ho : d.ok = true
          · refine (phaseStep_ok hs ho).2.1 i fun e => hc ?_
            rw [ho, (hi _).2 e.symm]; rfl
          · rw [phaseStep_bad hs ho]
        rw [hQ']; exact h0
    · intro n e hn ho hu
      by_cases hlt : n < l.length
      · rw [List.getElem?_append_left hlt] at hn
        rw [List.take_append_of_le_length (by omega)]
        exact ha n e hn ho hu
      · rw [List.getElem?_append_right (by omega)] at hn
        obtain ⟨h1, h2⟩ := List.getElem?_eq_some_iff.1 hn
        simp only [List.length_singleton] at h1
        have : n = l.length := by omega
        subst this
        simp only [Nat.sub_self, List.getElem_cons_zero] at h2
        subst h2
        rw [List.take_left' rfl]
        obtain ⟨g, hg, -⟩ := key ho hu
        rw [hg]; rfl

end MapEditr
