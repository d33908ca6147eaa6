import Verif.VhdlUnitLemmas
import Verif.Spec.VhdlPy
/-!
# Supported VHDL files have no statement for which the front end makes a null pointer
-/
namespace Verif.Vhdl
open Verif.Spec

theorem ok_not_null_sig {a : SigAssign} (h : okSig a) : ¬ nullSig a := by
  cases a <;> simp_all [okSig, nullSig]

theorem ok_not_null_seqs : ∀ {l : List Seq}, okSeqs l → ¬ ∃ s ∈ l, nullSeq s
  | [], _ => by simp
  | s :: l, h => by
    simp only [okSeqs] at h
    rintro ⟨x, hx, hn⟩
    rcases List.mem_cons.1 hx with rfl | hx
    · obtain ⟨label, k⟩ := x
      simp only [okSeq] at h
      cases label <;> cases k <;> try exact hn
      rename_i a
      have := h.1.1
      simp only [okSeqKind] at this
      exact ok_not_null_sig this hn
    · exact ok_not_null_seqs h.2 ⟨x, hx, hn⟩

mutual
theorem ok_not_null_decl : ∀ d : Decl, okDecl d → ¬ nullDecl d
  | .package _ _ l, h => by simp only [okDecl] at h; simp only [nullDecl]; exact ok_not_null_decls l h.2
  | .packageBody _ l, h => by simp only [okDecl] at h; simp only [nullDecl]; exact ok_not_null_decls l h
  | .subBody _ ds ss, h => by
    simp only [okDecl] at h; simp only [nullDecl]
    rintro (h1 | h1)
    · exact ok_not_null_decls ds h.2.1 h1
    · exact ok_not_null_seqs h.2.2 h1
  | .subprogram .., _ | .subInst .., _ | .file .., _ | .attrDecl .., _ | .attrSpec .., _ | .groupTemplate .., _ | .group .., _ | .disconnect, _ | .configSpec, _ | .packageInst .., _ | .typeIncomplete .., _ | .type .., _ | .subtype .., _ | .constant .., _ | .variable .., _ | .signal .., _
  | .alias_ .., _ | .use .., _ | .component .., _ => by simp only [nullDecl]; exact id
theorem ok_not_null_decls : ∀ l : List Decl, okDecls l → ¬ nullDecls l
  | [], _ => by simp only [nullDecls]; exact id
  | d :: l, h => by
    simp only [okDecls] at h; simp only [nullDecls]
    rintro (h1 | h1)
    · exact ok_not_null_decl d h.1 h1
    · exact ok_not_null_decls l h.2 h1
end

theorem ok_not_null_kind {s : ConcKind} (h : okConcKind s) : ¬ nullConcKind s := by
  cases s <;> try exact id
  simp only [okConcKind] at h
  rintro (h1 | h1)
  · exact ok_not_null_decls _ h.2.2.1 h1
  · exact ok_not_null_seqs h.2.2.2 h1

mutual
theorem ok_not_null_conc : ∀ c : Conc, okConc c → ¬ nullConc c
  | .plain _ s, h => by simp only [okConc] at h; simp only [nullConc]; exact ok_not_null_kind h
  | .block _ _ _ _ ds ss, h => by
    simp only [okConc] at h; simp only [nullConc]
    rintro (h1 | h1)
    · exact ok_not_null_decls ds h.2.2.2.1 h1
    · exact ok_not_null_concs ss h.2.2.2.2 h1
  | .inst .., _ => by simp only [nullConc]; exact id
  | .forGen _ _ _ b _, h => by simp only [okConc] at h; simp only [nullConc]; exact ok_not_null_body b h.2.1
  | .ifGen _ c el f _, h => by
    simp only [okConc] at h; simp only [nullConc]
    rintro (h1 | h1 | h1)
    · exact ok_not_null_cond c h.1 h1
    · exact ok_not_null_conds el h.2.1 h1
    · exact ok_not_null_else f h.2.2.1 h1
  | .caseGen _ _ l _, h => by simp only [okConc] at h; simp only [nullConc]; exact ok_not_null_alts l h.2.1
theorem ok_not_null_concs : ∀ l : List Conc, okConcs l → ¬ nullConcs l
  | [], _ => by simp only [nullConcs]; exact id
  | c :: l, h => by
    simp only [okConcs] at h; simp only [nullConcs]
    rintro (h1 | h1)
    · exact ok_not_null_conc c h.1 h1
    · exact ok_not_null_concs l h.2 h1
theorem ok_not_null_cond : ∀ c : GenCond, okGenCond c → ¬ nullGenCond c
  | .mk _ _ b, h => by simp only [okGenCond] at h; simp only [nullGenCond]; exact ok_not_null_body b h.2.2
theorem ok_not_null_conds : ∀ l : List GenCond, okGenConds l → ¬ nullGenConds l
  | [], _ => by simp only [nullGenConds]; exact id
  | c :: l, h => by
    simp only [okGenConds] at h; simp only [nullGenConds]
    rintro (h1 | h1)
    · exact ok_not_null_cond c h.1 h1
    · exact ok_not_null_conds l h.2 h1
theorem ok_not_null_else : ∀ f : GenElse, okGenElse f → ¬ nullGenElse f
  | .none, _ => by simp only [nullGenElse]; exact id
  | .some _ b, h => by simp only [okGenElse] at h; simp only [nullGenElse]; exact ok_not_null_body b h.2
theorem ok_not_null_alts : ∀ l : List GenAlt, okGenAlts l → ¬ nullGenAlts l
  | [], _ => by simp only [nullGenAlts]; exact id
  | .mk _ _ b :: l, h => by
    simp only [okGenAlts] at h; simp only [nullGenAlts]
    rintro (h1 | h1)
    · exact ok_not_null_body b h.2.2.1 h1.2
    · exact ok_not_null_alts l h.2.2.2 h1
theorem ok_not_null_body : ∀ b : GenBody, okGenBody b → ¬ nullGenBody b
  | .mk _ _ _, h => by
    simp only [okGenBody] at h; simp only [nullGenBody]
    rintro (h1 | h1)
    · exact ok_not_null_decls _ h.1 h1
    · exact ok_not_null_concs _ h.2 h1
end

theorem ok_not_null_unit {u : LibUnit} (h : okLibUnit u) : ¬ nullLibUnit u := by
  cases u <;> simp only [okLibUnit] at h <;> simp only [nullLibUnit] <;> try exact id
  · exact ok_not_null_decls _ h.2.2.1
  · exact ok_not_null_decls _ h.2
  · rintro (h1 | h1)
    · exact ok_not_null_decls _ h.2.1 h1
    · exact ok_not_null_concs _ h.2.2 h1
  · exact ok_not_null_decls _ h

end Verif.Vhdl
