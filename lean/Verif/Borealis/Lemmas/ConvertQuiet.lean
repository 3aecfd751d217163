import Verif.Borealis.SpecConvert
import Verif.Borealis.Lemmas.Convert
/-!
# Converted records hold no signalling NaN
-/
namespace Verif.Bor
open Verif

/-- A value of a field, if there is one, is no signalling NaN. -/
def QuietEntry (x : Except Err PlainVal) : Prop := ∀ b, x = .ok (.scalar (.np .float32) (.f32 b)) → ¬ IsSNaN b

theorem quiet_i8 (x : Except Err Int) : QuietEntry (i8 x) := by
  intro b h; unfold i8 at h; obtain ⟨_, -, h⟩ := bind_ok h; cases h

theorem quiet_i16 (x : Except Err Int) : QuietEntry (i16 x) := by
  intro b h; unfold i16 at h; obtain ⟨_, -, h⟩ := bind_ok h; cases h

theorem quiet_i32 (x : Except Err Int) : QuietEntry (i32 x) := by
  intro b h; unfold i32 at h; obtain ⟨_, -, h⟩ := bind_ok h; cases h

theorem quiet_text (x : Except Err PyStr) : QuietEntry (text x) := by
  intro b h; unfold text at h; obtain ⟨_, -, h⟩ := bind_ok h; cases h

theorem quiet_f32 {x : Except Err (BitVec 32)} (hx : ∀ b, x = .ok b → ¬ IsSNaN b) : QuietEntry (f32 x) := by
  intro b h; unfold f32 at h; obtain ⟨_, h1, h⟩ := bind_ok h; cases h; exact hx _ h1

theorem quiet_toF32 {ops : Ops} (hq : QuietOps ops) {x : Except Err Elt} :
    QuietEntry (f32 (do .ok (ops.toF32 (← x)))) :=
  quiet_f32 fun b h => by obtain ⟨e, -, h⟩ := bind_ok h; cases h; exact hq e

theorem quiet_zero : QuietEntry (f32 (.ok 0)) := quiet_f32 fun b h => by cases h; decide

theorem quiet_arr (a : Verif.NdArr) : QuietEntry (.ok (.arr a)) := by intro b h; cases h

theorem quiet_error (e : Err) : QuietEntry (.error e) := by intro b h; cases h

theorem quiet_bind {α : Type} {x : Except Err α} {g : α → Except Err PlainVal} (h : ∀ a, QuietEntry (g a)) :
    QuietEntry (x >>= g) := by
  intro b hb
  obtain ⟨a, -, hb⟩ := bind_ok hb
  exact h a b hb

theorem quiet_asI16 (ops : Ops) (v : Val) : QuietEntry (asI16 ops v) := quiet_bind fun _ => quiet_arr _

theorem quiet_dict {l : List Entry} {d : PlainRec} (h : dictOf l = .ok d) (hl : ∀ p ∈ l, QuietEntry p.2) : QuietNumbers d := by
  intro k b hb
  have : (k, Except.ok (.scalar (.np .float32) (.f32 b))) ∈ l := by
    rw [dictOf_ok.1 h]
    exact List.mem_map.2 ⟨_, hb, rfl⟩
  exact hl _ this b rfl

theorem quiet_cons {p : Entry} {l : List Entry} (h : QuietEntry p.2) (hl : ∀ q ∈ l, QuietEntry q.2) :
    ∀ q ∈ p :: l, QuietEntry q.2 := List.forall_mem_cons.2 ⟨h, hl⟩

theorem quiet_nil : ∀ q ∈ ([] : List Entry), QuietEntry q.2 := by intro q h; cases h

theorem quiet_common {cfg : NpCfg} {ops : Ops} (hq : QuietOps ops) (s : Source) (rev : Revision × Revision) (beam : Elt)
    (b : Nat) (txpow nrang : Except Err Int) : ∀ p ∈ commonFields cfg ops s rev beam b txpow nrang, QuietEntry p.2 := by
  unfold commonFields
  repeat' first
    | exact quiet_nil
    | refine quiet_cons ?_ ?_
    | exact quiet_i8 _
    | exact quiet_i16 _
    | exact quiet_i32 _
    | exact quiet_text _
    | exact quiet_zero
  all_goals
    refine quiet_f32 fun b h => ?_
    obtain ⟨_, -, h⟩ := bind_ok h
    first
      | (cases h; exact hq _)
      | (obtain ⟨_, -, h⟩ := bind_ok h
         first
          | (cases h; exact hq _)
          | (obtain ⟨_, -, h⟩ := bind_ok h; cases h; exact hq _))

theorem quiet_iqdat {cfg : NpCfg} {ops : Ops} (hq : QuietOps ops) (s : Source) (rev : Revision × Revision) (norm : Val)
    (nsamps nseq : Nat) (order : NdArr) (beam : Elt) (b : Nat) (l : List Elt) :
    ∀ p ∈ iqdatFields cfg ops s rev norm nsamps nseq order beam b l, QuietEntry p.2 := by
  unfold iqdatFields
  refine List.forall_mem_append.2 ⟨quiet_common hq s rev beam b _ _, ?_⟩
  exact quiet_cons (quiet_i16 _) <| quiet_cons (quiet_i16 _) <| quiet_cons (quiet_i32 _) <| quiet_cons (quiet_i32 _) <|
    quiet_cons (quiet_i32 _) <| quiet_cons (quiet_i32 _) <| quiet_cons (quiet_text _) <| quiet_cons (quiet_i32 _) <|
    quiet_cons (quiet_i32 _) <| quiet_cons (quiet_i32 _) <| quiet_cons (quiet_i32 _) <|
    quiet_cons (quiet_bind fun _ => quiet_asI16 _ _) <| quiet_cons (quiet_bind fun _ => quiet_asI16 _ _) <|
    quiet_cons (quiet_bind fun _ => quiet_bind fun _ => quiet_bind fun _ => quiet_arr _) <|
    quiet_cons (quiet_bind fun _ => quiet_bind fun _ => quiet_bind fun _ => quiet_arr _) <|
    quiet_cons (quiet_arr _) <| quiet_cons (quiet_bind fun _ => quiet_bind fun _ => quiet_arr _) <|
    quiet_cons (quiet_arr _) <| quiet_cons (quiet_arr _) <| quiet_cons (quiet_arr _) quiet_nil

theorem quiet_rawacf {cfg : NpCfg} {ops : Ops} (hq : QuietOps ops) (s : Source) (rev : Revision × Revision) (norm : Val)
    (nr nl : Nat) (beam : Elt) (b : Nat) (lag0 mainLags : List Elt) (crossLags : Option (List Elt)) :
    ∀ p ∈ rawacfFields cfg ops s rev norm nr nl beam b lag0 mainLags crossLags, QuietEntry p.2 := by
  unfold rawacfFields
  refine List.forall_mem_append.2 ⟨quiet_common hq s rev beam b _ _, ?_⟩
  repeat' first
    | exact quiet_nil
    | refine quiet_cons ?_ ?_
    | exact quiet_i8 _
    | exact quiet_i16 _
    | exact quiet_i32 _
    | exact quiet_text _
    | exact quiet_zero
    | exact quiet_arr _
    | exact quiet_asI16 _ _
    | exact quiet_error _
    | refine quiet_bind fun _ => ?_
    | split

/-- A converted record holds no signalling NaN. -/
theorem converted_quiet {cfg : NpCfg} {ops : Ops} (hq : QuietOps ops) {t : Target} {s : Source} {ds : List PlainRec}
    (h : convertRecord cfg ops t s = .ok ds) {d : PlainRec} (hd : d ∈ ds) : QuietNumbers d := by
  cases t with
  | iqdat =>
    simp only [convertRecord, convertBfiq] at h
    obtain ⟨_, -, h⟩ := bind_ok h
    obtain ⟨_, -, h⟩ := bind_ok h
    obtain ⟨_, -, h⟩ := bind_ok h
    repeat (obtain ⟨_, -, h⟩ := bind_ok h)
    obtain ⟨p, -, h⟩ := mapE_mem h hd
    obtain ⟨l, -, h⟩ := bind_ok h
    exact quiet_dict h (quiet_iqdat hq _ _ _ _ _ _ _ _ _)
  | rawacf =>
    simp only [convertRecord, convertRawacf] at h
    repeat (obtain ⟨_, -, h⟩ := bind_ok h)
    split at h
    · obtain ⟨p, -, h⟩ := mapE_mem h hd
      unfold rawacfRecord at h
      obtain ⟨_, -, h⟩ := bind_ok h
      obtain ⟨_, -, h⟩ := bind_ok h
      obtain ⟨_, -, h⟩ := bind_ok h
      obtain ⟨_, -, h⟩ := bind_ok h
      exact quiet_dict h (quiet_rawacf hq _ _ _ _ _ _ _ _ _ _)
    · cases h

end Verif.Bor
