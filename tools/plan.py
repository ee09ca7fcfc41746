plan = {
'C01':('utils','`Model/Utils` loops as folds; spec: `bitAt` = testBit of MSB-first position; induction on length.'),
'C02':('utils','shifts on UInt32/UInt64; spec: base-256 digits; injectivity by reassembly.'),
'C03':('storage/kv/range.go','spec: lexicographic order on byte lists written independently; iff proved by induction on the prefix.'),
'C04':('crypto/util.go commitments','completeness for all; the exact set of openings under no-collision of the two inputs; counterexample for the key alone.'),
'C05':('STR serialization','exact characterisation of equal bytes; injectivity on fixed-length fields; ambiguity counterexamples.'),
'C06':('TB serialization','cancellation with 64-byte signature and 32-byte index, both enforced by client checks.'),
'C07':('VRF over an abstract prime-order group','algebra in an additive group with scalars mod l.'),
'C08':('VRF','two accepting transcripts with the same commitments give equal discrete logs.'),
'C09':('insertNode as well-founded recursion','termination accepted by Lean; no panic by the path invariant; counterexample for mixed lengths.'),
'C10':('tree','invariant + leaves permutation; exact condition for the empty place that looks like an entry (Spec/Deep).'),
'C11':('tree hashing with caches','cache-coherence invariant, pure hash = canonical hash of the set of bindings.'),
'C12':('Get + Verify','descent/ascent induction, and the verdict of Verify at the deep empty places.'),
'C13':('Verify vs honest tree','root-down comparison under no-collision of listed inputs.'),
'C14':('two proofs','same; counterexamples for the unrestricted statement.'),
'C15':('Verify','exact characterisation of the panicking inputs.'),
'C16':('Get on absent index','two trees with equal shape; relational induction.'),
'C17':('clone','functional model, plus pointer-level model for aliasing.'),
'C18':('PAD','invariant over histories.'),
'C19':('PAD snapshot cache','invariant with explicit slice capacity, a separate one for capacities below 2.'),
'C20':('PAD','invariant: snapshot map only loses entries.'),
'C21':('Directory policies','invariant relating ad, policies and STR.'),
'C22':('reshuffle','fold over leaves.'),
'C23':('Directory','refinement to abstract directory.'),
'C24':('Directory','same.'),
'C25':('Directory','same.'),
'C26':('Directory','case analysis.'),
'C27':('Directory','case analysis.'),
'C28':('Directory.KeyLookupInEpoch','PAD invariant and refinement to the index-keyed directory (Spec/DirExact).'),
'C29':('Directory.Monitor','PAD invariant and refinement to the index-keyed directory (Spec/DirExact).'),
'C30':('Directory.GetSTRHistory','PAD invariant; the crash on evicted epochs characterised.'),
'C31':('Server dispatch','refuted by C30; partial for the rest.'),
'C32':('Client','invariant over arbitrary response sequences.'),
'C33':('Client + Directory','composition of honest results.'),
'C34':('Client','inversion of HandleResponse.'),
'C35':('Client','refuted: GetKey is a stub.'),
'C36':('Client','partial + counterexample.'),
'C37':('Client','characterisation + counterexamples.'),
'C38':('Client','case analysis.'),
'C39':('Auditor','induction over the range.'),
'C40':('Client.CheckEquivocation','inversion.'),
'C41':('hash chains','downward induction.'),
'C42':('Audit log','invariant over histories.'),
'C43':('Audit log','case analysis over maps.'),
'C44':('Audit log','case analysis.'),
'C45':('Server with RWMutex as interleaving state machine','invariant giving a sequential witness.'),
'C46':('Server permissions','case analysis.'),
'C47':('Server dispatch','case analysis.'),
'C48':('Server configuration/timer','model of config to timer; refuted.'),
'C49':('Bot','ASCII fold model.'),
'C50':('WriteFile over an abstract file system','case analysis; race between processes exhibited.'),
}
import os
for f in ('plan_more.py','plan_more2.py'):
    f = os.path.join(os.path.dirname(os.path.realpath(__file__)), f)
    if os.path.exists(f): exec(open(f).read())
