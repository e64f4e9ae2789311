import Verif.Props.PlanckStyle
import Verif.Props.NameLists

/-!
# More on what single definitions do, VI

Found by changing definitions: these changes broke nothing before.
-/

namespace Verif.NameLists
open Verif.Py Verif.ParamNames

/-- **C221**: the name at a place is that of the list; with the tag, derived parameters and only they end with a star; there is none behind the end -/
theorem nameAt_spec (ps : List Info) (ix : Nat) :
    nameAt ps ix false = (list ps)[ix]? ∧
    (∀ p, ps[ix]? = some p → nameAt ps ix true = some (p.name ++ (if p.isDerived = true then c!"*" else []))) ∧
    (∀ tag, ps.length ≤ ix → nameAt ps ix tag = none) := by
  refine ⟨?_, ?_, ?_⟩
  · unfold nameAt list
    rw [List.getElem?_map]
    rfl
  · intro p hp
    unfold nameAt
    rw [hp]
    cases h : p.isDerived <;> simp [h]
  · intro tag h
    unfold nameAt
    rw [List.getElem?_eq_none h]
    rfl

example : nameAt [{ name := c!"H0", isDerived := true }] 0 true = some c!"H0*" ∧ nameAt [{ name := c!"H0", isDerived := true }] 0 false = some c!"H0" := by decide

end Verif.NameLists

namespace Verif.PlanckStyle
open Verif.Py
open Verif.Table (times)

theorem Has.amps {s : Str} {w : Nat} (h : Has s w) : ∀ n, Has (s ++ times c!"&" n) (w + n)
  | 0 => by rw [times_zero, List.append_nil]; exact h
  | n + 1 => by
    have := Has.amps (h.amp (⟨by decide, by decide, by decide⟩ : Cell []).has) n
    rw [times_succ, ← List.append_assoc, show w + (n + 1) = w + 1 + n by omega]
    exact this

/-- **C219**: a row of a table with several columns of parameters has all its cells, also when the last row has fewer parameters -/
theorem fullRow_width (ncol cpr n : Nat) (row : List (Str × List (Option (List Str)))) (hrow : row ≠ []) (hn : row.length ≤ ncol) (h0 : 0 < n)
    (h : ∀ p ∈ row, Cell p.1 ∧ p.2.length = n ∧ ∀ r ∈ p.2, Filled cpr r) : width (fullRow ncol cpr row) = ncol * (1 + cpr * n) := by
  have h1 : Has (join c!"&" (row.map (fun p => paramTex cpr p.1 p.2))) ((1 + cpr * n) * row.length) := by
    have := Has.cells (w := 1 + cpr * n) (row.map (fun p => paramTex cpr p.1 p.2)) (by simpa using hrow) (by
      intro c hc
      obtain ⟨p, hp, rfl⟩ := List.mem_map.mp hc
      obtain ⟨a, b, d⟩ := h p hp
      have := has_param a (by intro e; rw [e] at b; simp at b; omega) d
      rwa [b] at this)
    rwa [List.length_map] at this
  have h2 : (row.head?.map (fun p => p.2.length)).getD 0 = n := by
    match row, hrow, h with
    | p :: _, _, h => exact (h p (by simp)).2.1
  unfold fullRow
  rw [h2]
  split
  next e =>
    rw [List.append_nil, h1.2, e, Nat.mul_comm]
  next e =>
    rw [(h1.amps _).2, ← Nat.mul_add, Nat.mul_comm]
    congr 1
    omega

example : width (fullRow 2 1 [(c!"H_0", [some [c!"67"], none])]) = 6 := by decide +kernel

/-- the spectra in the names of data, and how they are written -/
def spectra : List (Str × Str) := [(c!"TT", c!"TT"), (c!"TE", c!"TE"), (c!"EE", c!"EE"), (c!"TTTEEE", c!"TT,TE,EE")]

/-- **C219**: data have one label each, which names the experiment and exactly the spectra in their name -/
theorem datalabel_spec : (datalabel.map (·.1)).Nodup ∧ datalabel.length = 10 ∧
    ∀ p ∈ datalabel, ∃ x ∈ spectra, ∃ r, p.1 = c!"plikHM_" ++ x.1 ++ c!"_low" ++ r ∧
      ∃ s, p.2 = c!"\\textit{Planck} " ++ x.2 ++ s ∧ s ∈ [[], c!"$+$lowE", c!"+$lowT,P", c!"$+$lowT,P", c!"$+$lowT", c!"$+$lowE$+$lensing"] ∧
      (startsWith c!"$+$lowE" s = true → startsWith c!"E" r = true ∨ startsWith c!"l_lowE" r = true) ∧ (s = [] ↔ p.1 = c!"plikHM_TT_lowl") := by
  refine ⟨by decide +kernel, rfl, ?_⟩
  intro p hp
  unfold datalabel at hp
  simp only [List.mem_cons, List.not_mem_nil, or_false] at hp
  rcases hp with rfl | rfl | rfl | rfl | rfl | rfl | rfl | rfl | rfl | rfl
  · exact ⟨(c!"TT", c!"TT"), by decide, c!"l_lowE", rfl, c!"$+$lowE", rfl, by decide, by decide, by decide⟩
  · exact ⟨(c!"TE", c!"TE"), by decide, c!"E", rfl, c!"$+$lowE", rfl, by decide, by decide, by decide⟩
  · exact ⟨(c!"EE", c!"EE"), by decide, c!"E", rfl, c!"$+$lowE", rfl, by decide, by decide, by decide⟩
  · exact ⟨(c!"TE", c!"TE"), by decide, c!"l_lowE", rfl, c!"+$lowT,P", rfl, by decide, by decide, by decide⟩
  · exact ⟨(c!"EE", c!"EE"), by decide, c!"l_lowE", rfl, c!"$+$lowT,P", rfl, by decide, by decide, by decide⟩
  · exact ⟨(c!"TTTEEE", c!"TT,TE,EE"), by decide, c!"l_lowE", rfl, c!"$+$lowE", rfl, by decide, by decide, by decide⟩
  · exact ⟨(c!"TT", c!"TT"), by decide, c!"l", rfl, [], rfl, by decide, by decide, by decide⟩
  · exact ⟨(c!"TTTEEE", c!"TT,TE,EE"), by decide, c!"l", rfl, c!"$+$lowT", rfl, by decide, by decide, by decide⟩
  · exact ⟨(c!"TT", c!"TT"), by decide, c!"l_lowE_lensing", rfl, c!"$+$lowE$+$lensing", rfl, by decide, by decide, by decide⟩
  · exact ⟨(c!"TTTEEE", c!"TT,TE,EE"), by decide, c!"l_lowE_lensing", rfl, c!"$+$lowE$+$lensing", rfl, by decide, by decide, by decide⟩

end Verif.PlanckStyle
