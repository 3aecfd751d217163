import Verif.SDarn.Props.Checks
/-!
# Fields left out of a SuperDARN record (C23)

Which fields a caller can leave out of a record that is accepted so that the checks of
/repo/pydarnio/dmap/superdarn.py:133-248 still accept it: a whole group always, one field only if
it is the only one of its group.
-/
namespace Verif.SD
open Verif

theorem has_filter {r : Rec} {P : PyStr → Bool} {k : PyStr} :
    Has (r.filter fun p => P p.1) k ↔ Has r k ∧ P k = true :=
  ⟨fun ⟨f, hf⟩ => ⟨⟨f, (List.mem_filter.1 hf).1⟩, (List.mem_filter.1 hf).2⟩,
   fun ⟨⟨f, hf⟩, hk⟩ => ⟨f, List.mem_filter.2 ⟨hf, hk⟩⟩⟩

theorem conforms_filter {ft : FileType} {r : Rec} (h : Conforms ft r) {P : PyStr → Bool}
    (hP : ∀ g ∈ required ft, (∀ k t, (k, t) ∈ g → P k = true) ∨ (∀ k t, (k, t) ∈ g → P k = false)) :
    Conforms ft (r.filter fun p => P p.1) := by
  refine ⟨fun g hg => ?_, fun k hk => h.known k (has_filter.1 hk).1,
    fun k f hf => h.typed k f (List.mem_filter.1 hf).1⟩
  rcases hP g hg with hp | hp
  · rcases h.complete g hg with hc | hc
    · exact .inl fun k t hk => has_filter.2 ⟨hc k t hk, hp k t hk⟩
    · exact .inr fun k t hk hh => hc k t hk (has_filter.1 hh).1
  · exact .inr fun k t hk hh => by
      have := (has_filter.1 hh).2
      rw [hp k t hk] at this
      cases this

/-- Two groups of a file type with a name in common are the same group. -/
theorem group_of_name (ft : FileType) : ∀ g ∈ required ft, ∀ g' ∈ required ft,
    ∀ p ∈ g, ∀ q ∈ g', p.1 = q.1 → g = g' := by
  cases ft <;> decide +kernel

/-- **C23** (a group left out).  From a record that is accepted every group can be left out, also
the one of the main fields: the rest is accepted by the reader and by the writer. -/
theorem C23_group_left_out (ft : FileType) {g : Table} (hg : g ∈ required ft) (rn : Nat) {r : Rec}
    (h : readCheck (readGroups ft) (readOptional ft) rn r = .ok ()) :
    readCheck (readGroups ft) (readOptional ft) rn (r.filter fun p => p.1 ∉ g.map Prod.fst) = .ok () ∧
    writeCheck (writeGroups ft) (writeOptional ft) rn (r.filter fun p => p.1 ∉ g.map Prod.fst) = .ok () := by
  have hc : Conforms ft (r.filter fun p => p.1 ∉ g.map Prod.fst) := by
    refine conforms_filter (P := fun k => decide (k ∉ g.map Prod.fst)) ((C23_read ft rn r).1 h) ?_
    intro g' hg'
    by_cases he : g = g'
    · subst he
      exact .inr fun k t hk => decide_eq_false fun hn => hn (List.mem_map.2 ⟨_, hk, rfl⟩)
    · refine .inl fun k t hk => decide_eq_true fun hm => ?_
      obtain ⟨p, hp, hpk⟩ := List.mem_map.1 hm
      exact he (group_of_name ft g hg g' hg' p hp (k, t) hk hpk)
  exact ⟨(C23_read ft rn _).2 hc, (C23_write ft rn _).2 hc⟩

/-- **C23** (a field left out).  A record that is accepted, without one of the fields of its
groups, is accepted iff the field is the only one of its group. -/
theorem C23_field_left_out (ft : FileType) {g : Table} (hg : g ∈ required ft) {k : PyStr} {t : Fmt}
    (hk : (k, t) ∈ g) (rn : Nat) {r : Rec} (hr : Has r k)
    (h : readCheck (readGroups ft) (readOptional ft) rn r = .ok ()) :
    readCheck (readGroups ft) (readOptional ft) rn (r.filter fun p => p.1 ≠ k) = .ok () ↔
      ∀ p ∈ g, p.1 = k := by
  have hc := (C23_read ft rn r).1 h
  have hf : ∀ j, Has (r.filter fun p => p.1 ≠ k) j ↔ Has r j ∧ decide (j ≠ k) = true :=
    fun j => has_filter (P := fun j => decide (j ≠ k))
  rw [C23_read]
  constructor
  · intro h' p hp
    refine Classical.byContradiction fun hne => ?_
    rcases h'.complete g hg with h1 | h1
    · exact of_decide_eq_true ((hf k).1 (h1 k t hk)).2 rfl
    · rcases hc.complete g hg with h2 | h2
      · exact h1 p.1 p.2 hp ((hf p.1).2 ⟨h2 p.1 p.2 hp, decide_eq_true hne⟩)
      · exact h2 k t hk hr
  · intro ha
    refine conforms_filter (P := fun j => decide (j ≠ k)) hc fun g' hg' => ?_
    by_cases he : g = g'
    · subst he
      exact .inr fun j t' hj => decide_eq_false fun hn => hn (ha _ hj)
    · exact .inl fun j t' hj => decide_eq_true fun hjk =>
        he (group_of_name ft g hg g' hg' (k, t) hk (j, t') hj hjk.symm)

/-- **C23** (a field left out, the error).  If the group has another field, the reader names just
the field that was left out. -/
theorem C23_field_left_out_named (ft : FileType) {g : Table} (hg : g ∈ required ft) {k : PyStr} {t : Fmt}
    (hk : (k, t) ∈ g) (rn : Nat) {r : Rec} (hr : Has r k)
    (h : readCheck (readGroups ft) (readOptional ft) rn r = .ok ()) (hne : ∃ p ∈ g, p.1 ≠ k) :
    ∃ fs, readCheck (readGroups ft) (readOptional ft) rn (r.filter fun p => p.1 ≠ k) =
        .error (.sdFieldMissing rn fs) ∧ ∀ j, j ∈ fs ↔ j = k := by
  have hc := (C23_read ft rn r).1 h
  have hf : ∀ j, Has (r.filter fun p => p.1 ≠ k) j ↔ Has r j ∧ decide (j ≠ k) = true :=
    fun j => has_filter (P := fun j => decide (j ≠ k))
  obtain ⟨p, hp, hpk⟩ := hne
  have hm : ∀ j, Missing (required ft) (r.filter fun p => p.1 ≠ k) j ↔ j = k := by
    intro j
    constructor
    · rintro ⟨g', hg', ⟨t', hj⟩, hn, k', t'', hk', hh⟩
      refine Classical.byContradiction fun hjk => ?_
      rcases hc.complete g' hg' with h2 | h2
      · exact hn ((hf j).2 ⟨h2 j t' hj, decide_eq_true hjk⟩)
      · exact h2 k' t'' hk' ((hf k').1 hh).1
    · rintro rfl
      refine ⟨g, hg, ⟨t, hk⟩, fun hh => of_decide_eq_true ((hf _).1 hh).2 rfl, p.1, p.2, hp, (hf _).2 ⟨?_, decide_eq_true hpk⟩⟩
      rcases hc.complete g hg with h2 | h2
      · exact h2 p.1 p.2 hp
      · exact absurd hr (h2 _ t hk)
  have he : ¬ ∃ j, Extra (required ft ++ optional ft) (r.filter fun p => p.1 ≠ k) j :=
    fun ⟨j, hj, hn⟩ => hn (hc.known j ((hf j).1 hj).1)
  rcases (readCheck_outcome (describes_read ft) rn _).reports.missing ⟨k, (hm k).2 rfl⟩ with h1 | ⟨fs, h1, h2⟩
  · exact absurd h1 he
  · exact ⟨fs, h1, fun j => (h2 j).trans (hm j)⟩

/-- The sample record without its 51 main fields is accepted (`acfd` is left); without `cp` it is
refused; without `acfd`, the only field of its group, it is accepted. -/
example :
    readCheck (readGroups .rawacf) (readOptional .rawacf) 0
      (Sample.rawacf.filter fun p => p.1 ∉ Rawacf.types.map Prod.fst) = .ok () ∧
    (Sample.rawacf.filter fun p => p.1 ∉ Rawacf.types.map Prod.fst).length = 1 ∧
    readCheck (readGroups .rawacf) (readOptional .rawacf) 0
      (Sample.rawacf.filter fun p => p.1 ≠ py! "cp") = .error (.sdFieldMissing 0 [py! "cp"]) ∧
    readCheck (readGroups .rawacf) (readOptional .rawacf) 0
      (Sample.rawacf.filter fun p => p.1 ≠ py! "acfd") = .ok () := by
  decide +kernel

end Verif.SD
