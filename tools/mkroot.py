import glob,os
os.chdir('/verif/lean')
fs=sorted(glob.glob('Verif/*/*.lean'))
open('Verif.lean','w').write("".join("import "+f[:-5].replace('/','.')+"\n" for f in fs))
