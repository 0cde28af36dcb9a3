while pgrep -f "reseed.py 2" >/dev/null; do sleep 10; done
python3 seed.py mut11.json > seed11.out 2>&1
python3 reseed.py 1 auto1_0054,auto1_0068,auto1_0070,auto1_0114,auto1_0115,auto1_0267,auto1_0282,auto1_0089,auto1_0102,auto1_0106,auto1_0113,auto1_0229 > reseed1.out 2>&1
