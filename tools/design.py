import json,subprocess
P={}
for l in open('/verif/properties.jsonl'):
    d=json.loads(l);P[d['id']]=d
M={c['property']:c for c in json.load(open('/verif/MANIFEST.json'))['claims']}
plan={
'C01':'`nodes` over ℝ; sine form = cosine form, monotone, symmetric, endpoints',
'C02':'forward/backward modelled statement by statement around DCT-I; evaluation with `Polynomial.Chebyshev.T`',
'C03':'orthogonality of the cosines at the Chebyshev points',
'C04':'loop invariant of `gradient_slice`; compared with `Polynomial.derivative^[k]` of Σ a_j T_j',
'C05':'from C04 and uniqueness of Chebyshev coefficients',
'C06':'`_dmat` with 64-bit `usize` in debug and release mode; closed forms = derivative of T_j',
'C07':'negation proved (witnesses for each derivative order and mode); partial: below the limits',
'C08':'`_pinv` rows; polynomial identities per band',
'C09':'from C06, C08',
'C10':'loops of `pinv`; normal equations of the stencil, any ordered field',
'C11':'loop invariant of `dot_inplace` = `mulVec` of `to_array`',
'C12':'negation proved for every size (out-of-bounds read); partial: the rows that are computed',
'C13':'factorisation invariants + C10','C14':'normal equations; minimiser over inner product spaces',
'C15':'from C13','C16':'equality on the range; counterexample outside',
'C17':'values and derivatives of T_k at ±1; kernel of the boundary functionals = range of the stencil',
'C18':'loop invariants of tdma/pdma/pdma2 = LU factorisation, no bound on n','C19':'Schur complement invariant: pivots positive',
'C20':'simulation: checked and unchecked loops step alike','C21':'composition of C02, C03, C13, C17',
'C22':'composition of C04, C11','C23':'closed forms of the loops','C24':'orthogonality of roots of unity',
'C25':'evaluation of the trigonometric sum','C26':'negation proved for n ≥ 2; partial: exact behaviour, non-negative frequencies',
'C27':'diagonal matrices, derivative of exp(ikx)','C28':'Hermitian extension; odd and even n','C29':'as C27 for r2c','C30':'as C27',
'C31':'every slice operator = fixed linear map','C32':'`Computes`: result does not depend on the old output',
'C33':'lane addresses partition the row-major data; fold over lanes','C34':'invariant of interleaved tasks, any fair schedule',
'C35':'the checks of the array methods','C36':'lane laws lift to axes; axes commute','C37':'operators along different axes commute',
'C38':'tensor functions; mixed derivatives','C39':'as C36','C40':'negation proved; partial: bases 1 and 2 equal',
'C41':'shape computation','C42':'invariant of `distribute`','C43':'underflow in `distribute`, both modes',
'C44':'asynchronous network of ranks; `Runs` (lock step) implies `AllReturn` (all interleavings)','C45':'as C44','C46':'counts of sender and receiver agree','C47':'history of inserts',
'C48':'constructor inserts all shapes that are looked up','C49':'pencil of the result = result on pencils, C33 + C44',
'C50':'over ℝ, characterisations','C51':'exact size tables; unchecked accesses as `ub`','C52':'direct',
'C53':'tensor form of C11','C54':'tensor form of C02/C21/C25/C28','C55':'tensor form of C14','C56':'as C44 for scalars',
'C57':'methods of the distributed space, C44, C45, C48','C58':'C36 + C49','C59':'interpolation of sampled functions, C03/C21/C28 + C38',
'C60':'stencil and projection','C61':'case analysis','C62':'C06, C08, C17: quasi-inverse systems are equivalent to the equations',
'C63':'invariant over histories of calls and schedules','C64':'whole programs, composition of C49, C57 on a network with two element types',
}
plan.update(json.load(open('/verif/tools/plan.json')) if __import__('os').path.exists('/verif/tools/plan.json') else {})
rows='\n'.join(f"| {i} | {P[i]['title']} | {plan.get(i,'')} | {M[i]['status'] if i in M else 'planned'} |" for i in sorted(P))
cov=subprocess.run(['python3','/verif/tools/coverage.py'],capture_output=True,text=True)
covt=cov.stdout.strip(); tot=cov.stderr.strip().split()[-2:]
t=open('/verif/tools/design.tmpl.md').read()
t=t.replace('@@ROWS@@',rows).replace('@@COV@@',covt).replace('@@NCOV@@',tot[0]).replace('@@NMISS@@',tot[1])
open('/verif/DESIGN.md','w').write(t)
