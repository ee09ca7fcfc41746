plan['C52']=('goroutines, stop channel and wait groups of ServerBase as a small-step system','counting invariant; termination measure; counterexample for two listeners.')
plan['C58']=('updatePolicies on an abstract decoded file','case analysis; counterexample for missing tables.')
plan['C59']=('saving of the initial STR over an abstract file system','case analysis; stale file counterexample.')
plan['C60']=('key file generation over an abstract file system','case analysis; stale file counterexample.')
plan['C53']=('FieldElement limbs; straight-line code as programs of wrapping machine operations','interval analysis and polynomial identity check, both proved sound and run in the kernel; addition chains by exponents.')
plan['C54']=('scalar limbs; straight-line code as programs','interval analysis, polynomial identity check and a floor argument for the last carries.')
plan['C55']=('group elements in the four coordinate systems, slide, tables, loops','Edwards group law by certificates; refinement of each coordinate system; loop invariants; table checked by the kernel; Hasse-free count of points from the order of the base point and the 8-torsion.')
plan['C56']=('ToBytes, FromParityAndY, FromBytes, FromBytesBaseGroup','square roots in the field of p = 5 mod 8; group order.')
plan['C57']=('HashToEdwards and its helpers','quadratic characters; the birational map; explicit small-order points.')
